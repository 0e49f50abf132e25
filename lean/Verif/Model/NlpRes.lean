import Verif.Model.NlpStep
import Mathlib.Algebra.Order.Field.Basic
import Mathlib.Algebra.Order.Group.Abs
/-!
# NLP residuals, infeasibility measure, QP objective value

`ocp_nlp_res_compute`, `ocp_nlp_get_l1_infeasibility`, `ocp_nlp_compute_qp_objective_value`,
the multiplier norms, and the collection of the dynamics adjoints
(`ocp_nlp_approximate_qp_matrices`).
-/
namespace Acados.Res
open Finset
open Acados.Step (Dims)

section
variable {K : Type*} [Field K] [LinearOrder K]

/-- `blasfeo_dvecnrm_inf` (external, trusted): largest absolute value, 0 for an empty vector -/
def nrmInf (n : Nat) (x : Nat → K) : K := (List.range n).foldl (fun m j => max m |x j|) 0

/-- one stage of the linearisation: dynamics Jacobian `BAbt` (rows `[u; x]`, columns next state)
and multiplier -/
structure Dyn (K : Type*) where
  BAbt : Nat → Nat → K
  pi : Nat → K

/-- adjoint computed by a dynamics module: first `nu+nx` entries `-BAbt pi`, then `pi`;
ocp_nlp_dynamics_cont.c:860-880 (with `sens_adj` off), ocp_nlp_dynamics_disc.c:748-753 -/
def dynAdjModule (d : Dims) (dyn : Nat → Dyn K) (i r : Nat) : K :=
  if r < d.nu i + d.nx i then - ∑ c ∈ range (d.nx (i + 1)), (dyn i).BAbt r c * (dyn i).pi c
  else (dyn i).pi (r - (d.nu i + d.nx i))

/-- `mem->dyn_adj`, ocp_nlp_common.c:3069-3088 (entries `r < nu+nx` of stage `i ≤ N`) -/
def dynAdj (d : Dims) (dyn : Nat → Dyn K) (i r : Nat) : K :=
  (if i < d.N then dynAdjModule d dyn i r else 0) +
  (if 0 < i ∧ d.nu i ≤ r ∧ r < d.nu i + d.nx i then
    dynAdjModule d dyn (i - 1) (d.nu (i - 1) + d.nx (i - 1) + (r - d.nu i)) else 0)

/-- what the modules left in `ocp_nlp_memory` / `ocp_nlp_out` / `ocp_nlp_in` -/
structure Eval (K : Type*) where
  costGrad : Nat → Nat → K
  ineqAdj : Nat → Nat → K
  dyn : Nat → Dyn K
  dynFun : Nat → Nat → K
  ineqFun : Nat → Nat → K
  lam : Nat → Nat → K
  dmask : Nat → Nat → K
  /-- number of equalities `nbue + nbxe + nge` of the QP and their indices -/
  ne : Nat → Nat
  idxe : Nat → Nat → Nat

/-- the norms in `ocp_nlp_res` -/
structure Norms (K : Type*) where
  stat : K
  eq : K
  ineq : K
  comp : K

/-- `res->res_stat`, ocp_nlp_common.c:3693-3698 -/
def resStat (d : Dims) (e : Eval K) (i r : Nat) : K :=
  e.costGrad i r - e.ineqAdj i r - (if r < d.nu i + d.nx i then dynAdj d e.dyn i r else 0)

/-- the loop for `inf_norm_res_ineq`, ocp_nlp_common.c:3714-3726, over the given list of values -/
def ineqLoop {D : Type*} [LT D] [DecidableLT D] (vals : List D) (start : D) : D :=
  vals.foldl (fun m t => if t > m then t else m) start

/-- all inequality values, stage by stage -/
def ineqVals {D : Type*} (d : Dims) (f : Nat → Nat → D) : List D :=
  (List.range (d.N + 1)).flatMap fun i => (List.range (2 * d.ni i)).map (f i)

/-- `res->res_comp` in the branch `tau_min != 0`, ocp_nlp_common.c:3729-3770: `lam .* fun + tau`,
entries `idxe[j]` and `idxe[j] + ni[i]` zeroed, then masked -/
def resCompTau (d : Dims) (e : Eval K) (tau : K) (i r : Nat) : K :=
  e.dmask i r *
    (if ∃ j < e.ne i, r = e.idxe i j ∨ r = e.idxe i j + d.ni i then 0
      else e.lam i r * e.ineqFun i r + tau)

/-- `ocp_nlp_res_compute`, ocp_nlp_common.c:3680-3782.  `tmp` is the previous content of the scratch
vector `res->tmp`; it is returned as well because the complementarity norm reads entries of it
that this call may not have written. -/
def resCompute (d : Dims) (e : Eval K) (tau : K) (tmp : Nat → K) : Norms K × (Nat → K) :=
  let tmp1 : Nat → K := fun i => if i ≤ d.N then nrmInf (d.nv i) (resStat d e i) else tmp i
  let tmp2 : Nat → K := fun i => if i < d.N then nrmInf (d.nx (i + 1)) (e.dynFun i) else tmp1 i
  let tmp3 : Nat → K := fun i =>
    if tau ≠ 0 then
      (if i ≤ d.N ∧ 0 < d.ni i then nrmInf (2 * d.ni i) (resCompTau d e tau i) else tmp2 i)
    else
      (if i ≤ d.N then nrmInf (2 * d.ni i) (fun r => e.lam i r * e.ineqFun i r) else tmp2 i)
  ({ stat := nrmInf (d.N + 1) tmp1
     eq := nrmInf d.N tmp2
     ineq := ineqLoop (ineqVals d e.ineqFun) 0
     comp := nrmInf (d.N + 1) tmp3 }, tmp3)

/-- `ocp_nlp_res_get_inf_norm`, ocp_nlp_common.c:3784-3792 -/
def infNorm (n : Norms K) : K :=
  let a := if n.eq > n.stat then n.eq else n.stat
  let b := if n.ineq > a then n.ineq else a
  if n.comp > b then n.comp else b

/-- `ocp_nlp_get_l1_infeasibility`, ocp_nlp_common.c:2703-2739 -/
def l1Infeas (d : Dims) (dynFun ineqFun : Nat → Nat → K) : K :=
  (∑ i ∈ range d.N, ∑ j ∈ range (d.nx (i + 1)), |dynFun i j|) +
  ∑ i ∈ range (d.N + 1), ∑ j ∈ range (2 * d.ni i), (if ineqFun i j > 0 then ineqFun i j else 0)

/-- `ocp_nlp_compute_dual_pi_norm_inf`, ocp_nlp_common.c:2667-2683 (in exact arithmetic the nested
loop is the maximum over the stages) -/
def piNorm (d : Dims) (pi : Nat → Nat → K) : K :=
  (List.range d.N).foldl (fun m i => (List.range (d.nx (i + 1))).foldl
    (fun m j => max m |pi i j|) m) 0

/-- `ocp_nlp_compute_dual_lam_norm_inf`, ocp_nlp_common.c:2685-2700 -/
def lamNorm (d : Dims) (lam : Nat → Nat → K) : K :=
  (List.range (d.N + 1)).foldl (fun m i => (List.range (2 * d.ni i)).foldl
    (fun m j => max m |lam i j|) m) 0

end

section
variable {K : Type*} [Field K]

/-- stage data of the QP objective: `RSQrq` (only the lower triangle is read), gradient `rqz`
(including the slack part), slack Hessian diagonal `Z` -/
structure QpObj (K : Type*) where
  H : Nat → Nat → Nat → K
  g : Nat → Nat → K
  Z : Nat → Nat → K

/-- the symmetric matrix BLASFEO's `dsymv_l` reads out of the lower triangle -/
def symL (H : Nat → Nat → K) (r c : Nat) : K := if c ≤ r then H r c else H c r

/-- `ocp_nlp_compute_qp_objective_value`, ocp_nlp_common.c:2635-2664, stage by stage.
`ux` holds `[u; x; slacks]`. -/
def qpObjStage (d : Dims) (q : QpObj K) (ux : Nat → Nat → K) (i : Nat) : K :=
  let nux := d.nx i + d.nu i
  let tmp1 : Nat → K := fun r => (1/2) * ∑ c ∈ range nux, symL (q.H i) r c * ux i c
  let tmp2 : Nat → K := fun k => 2 * ux i (nux + k) + q.Z i k * ux i (nux + k)
  (∑ r ∈ range nux, ux i r * tmp1 r) + (1/2) * (∑ k ∈ range (2 * d.ns i), tmp2 k * ux i (nux + k)) +
  (∑ r ∈ range nux, ux i r * q.g i r) +
  ∑ k ∈ range (2 * d.ns i), ux i (nux + k) * q.g i (nux + k)

def qpObj (d : Dims) (q : QpObj K) (ux : Nat → Nat → K) : K :=
  ∑ i ∈ range (d.N + 1), qpObjStage d q ux i

/-- `ocp_nlp_compute_gradient_directional_derivative`, ocp_nlp_common.c:2613-2633 -/
def dirDer (d : Dims) (q : QpObj K) (ux : Nat → Nat → K) : K :=
  ∑ i ∈ range (d.N + 1),
    ((∑ r ∈ range (d.nx i + d.nu i), ux i r * q.g i r) +
      ∑ k ∈ range (2 * d.ns i), ux i (d.nx i + d.nu i + k) * q.g i (d.nx i + d.nu i + k))

end
end Acados.Res
