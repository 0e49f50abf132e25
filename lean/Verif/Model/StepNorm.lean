import Verif.Spec.StepNorm
import Verif.Model.NlpRes

/-!
# Step norms

`acados/ocp_qp/ocp_qp_common.c`: `ocp_qp_out_compute_primal_nrm_inf`,
`ocp_qp_out_compute_dual_nrm_inf`; `acados/ocp_nlp/ocp_nlp_common.c`:
`ocp_nlp_compute_delta_dual_norm_inf`, the fields `primal_step_norm`, `dual_step_norm` of
`ocp_nlp_memory_get`; their logging in `acados/ocp_nlp/ocp_nlp_sqp.c` and
`acados/ocp_nlp/ocp_nlp_globalization_fixed_step.c`.

Not modelled: NaN.
-/

namespace Acados.StepNorm

open Acados.Res (nrmInf)

section
variable {K : Type*} [Field K] [LinearOrder K]

/-- `res > res_stage ? res : res_stage` -/
def cmax (a b : K) : K := if a > b then a else b

/-- `ocp_qp_out_compute_primal_nrm_inf`, ocp_qp_common.c:263-279. -/
def primalNorm (d : Dims) (v : Vecs K) : K :=
  (List.range (d.N + 1)).foldl
    (fun r i => cmax r (nrmInf (d.nx i + d.nu i + 2 * d.ns i) (v.ux i))) 0

/-- `ocp_qp_out_compute_dual_nrm_inf`, ocp_qp_common.c:309-329. -/
def dualNorm (d : Dims) (v : Vecs K) : K :=
  (List.range (d.N + 1)).foldl (fun r i => cmax r (nrmInf (2 * d.ni i) (v.lam i)))
    ((List.range d.N).foldl (fun r i => cmax r (nrmInf (d.nx (i + 1)) (v.pi i))) 0)

/-- `ocp_nlp_compute_delta_dual_norm_inf`, ocp_nlp_common.c:3797-3819. -/
def deltaDual (d : Dims) (old qp : Vecs K) : K :=
  (List.range (d.N + 1)).foldl
    (fun norm i =>
      let norm := cmax norm (nrmInf (2 * d.ni i) (fun j => qp.lam i j + (-1) * old.lam i j))
      if i < d.N then
        cmax norm (nrmInf (d.nx (i + 1)) (fun j => qp.pi i j + (-1) * old.pi i j))
      else norm) 0

/-- How an iteration ends: the QP solver fails, the globalization fails, or the step is taken. -/
inductive It (K : Type*)
  | qpFail
  | globFail (s : Step K)
  | ok (s : Step K)

/-- Logged norms and the number of iterations; the memory is kept between calls. -/
structure Log (K : Type*) where
  iter : ℕ
  primal : ℕ → K
  dual : ℕ → K

omit [Field K] [LinearOrder K] in
/-- An array is written at one index. -/
def put (a : ℕ → K) (i : ℕ) (v : K) : ℕ → K := fun j => if j = i then v else a j

/-- ocp_nlp_sqp.c:762-771, both options of logging are set. -/
def logQp (d : Dims) (s : Step K) (l : Log K) : Log K :=
  let l := { l with primal := put l.primal l.iter (primalNorm d s.qp) }
  if s.anderson.isNone then { l with dual := put l.dual l.iter (deltaDual d s.old s.qp) } else l

/-- ocp_nlp_globalization_fixed_step.c:204-211. -/
def logGlob (d : Dims) (s : Step K) (l : Log K) : Log K :=
  match s.anderson with
  | none => l
  | some v =>
    { l with primal := put l.primal l.iter (primalNorm d v), dual := put l.dual l.iter (dualNorm d v) }

/-- Iterations of a call, ocp_nlp_sqp.c:541-800; a failure of the QP solver increments `iter`
(line 730), a failure of the globalization does not. The list ends when `check_termination` (line 647)
returns true. -/
def loop (d : Dims) : List (It K) → Log K → Log K
  | [], l => l
  | .qpFail :: _, l => { l with iter := l.iter + 1 }
  | .globFail s :: _, l => logQp d s l
  | .ok s :: rest, l =>
    let l := logGlob d s (logQp d s l)
    loop d rest { l with iter := l.iter + 1 }

/-- A call of `solve`: ocp_nlp_sqp.c:534. -/
def solve (d : Dims) (its : List (It K)) (l : Log K) : Log K := loop d its { l with iter := 0 }

omit [Field K] [LinearOrder K] in
/-- `get_stats('primal_step_norm')`, ocp_nlp_common.c:4808-4823, acados_ocp_solver.py:1790-1795. -/
def Log.getPrimal (l : Log K) : List K := (List.range l.iter).map l.primal

omit [Field K] [LinearOrder K] in
/-- `get_stats('dual_step_norm')`, ocp_nlp_common.c:4824-4839, acados_ocp_solver.py:1790-1795. -/
def Log.getDual (l : Log K) : List K := (List.range l.iter).map l.dual

end

end Acados.StepNorm
