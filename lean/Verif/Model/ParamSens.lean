import Verif.Model.Num
import Mathlib.Algebra.BigOperators.Group.Finset.Basic
import Mathlib.Algebra.Field.Basic
/-!
# Solution sensitivities with respect to global parameters and the initial state

`ocp_nlp_params_jac_compute`, `ocp_nlp_common_eval_param_sens`, `ocp_nlp_common_eval_solution_sens_adj_p`,
`ocp_nlp_common_eval_lagr_grad_p` and the option handling of `ocp_nlp_common_setup_qp_matrices_and_factorize`
(`acados/ocp_nlp/ocp_nlp_common.c`), with the functions of the modules they call: discrete dynamics
(`ocp_nlp_dynamics_disc.c`), external and linear least-squares cost, `bgh` constraints.  The other modules end the
program (`exit(1)`) in these functions.

The external functions generated by CasADi are modelled by the derivative of the user function at the current iterate
which they return (casadi_function_generation.py:240-268, 550-567, 813-856).  The QP solver's forward and adjoint
sensitivity routines are parameters.  Vectors and matrices are functions of their indices.
-/
namespace Acados.PSens
open Finset
variable {K : Type*} [Field K]

/-- dimensions of `ocp_nlp_dims` used here -/
structure Dims where
  N : Nat
  nx : Nat → Nat
  nu : Nat → Nat
  ns : Nat → Nat
  nb : Nat → Nat
  ng : Nat → Nat
  /-- number of nonlinear inequalities (`ni_nl`, for `bgh` this is `nh`) -/
  nh : Nat → Nat
  /-- number of global parameters -/
  np : Nat
  /-- number of bounds on controls at stage 0 -/
  nbu0 : Nat

/-- `nv = nx + nu + 2 ns`, ocp_nlp_common.c (ocp_nlp_dims_set) -/
def Dims.nv (d : Dims) (i : Nat) : Nat := d.nu i + d.nx i + 2 * d.ns i

/-- `ni = nb + ng + nh + ns`, ocp_nlp_common.c (ocp_nlp_dims_set) -/
def Dims.ni (d : Dims) (i : Nat) : Nat := d.nb i + d.ng i + d.nh i + d.ns i

/-- first and second derivatives at the iterate of the functions the user gave, with respect to the variables
`ux = (u, x)` of the stage (index `r`) and the global parameters (index `k`) -/
structure Prob (K : Type*) where
  /-- `model->scaling` of the cost of a stage -/
  scaling : Nat → K
  /-- the cost module of the stage is `EXTERNAL` (else `LINEAR_LS`, which has no global parameters) -/
  ext : Nat → Bool
  /-- `∂ℓᵢ/∂p_k` of the unscaled external cost -/
  lp : Nat → Nat → K
  /-- `∂²ℓᵢ/∂ux_r∂p_k` of the unscaled external cost -/
  lxp : Nat → Nat → Nat → K
  /-- `∂φᵢ_c/∂p_k` -/
  fp : Nat → Nat → Nat → K
  /-- `∂²φᵢ_c/∂ux_r∂p_k` -/
  fxp : Nat → Nat → Nat → Nat → K
  /-- `∂hᵢ_j/∂p_k` -/
  hp : Nat → Nat → Nat → K
  /-- `∂²hᵢ_j/∂ux_r∂p_k` -/
  hxp : Nat → Nat → Nat → Nat → K

/-- multipliers of the iterate, `ocp_nlp_out` -/
structure Mult (K : Type*) where
  pi : Nat → Nat → K
  lam : Nat → Nat → K

/-- the matrices `jac_lag_stat_p_global`, `jac_dyn_p_global`, `jac_ineq_p_global` of the solver memory -/
structure Jac (K : Type*) where
  lag : Nat → Nat → Nat → K
  dyn : Nat → Nat → Nat → K
  ineq : Nat → Nat → Nat → K

/-- write of an `n × np` block at row `r0` of a matrix (`dgese`, or the output of an external function) -/
def wrBlk (np r0 n : Nat) (v m : Nat → Nat → K) : Nat → Nat → K :=
  fun r k => if r0 ≤ r ∧ r < r0 + n ∧ k < np then v (r - r0) k else m r k

/-- `blasfeo_dgead` of an `n × np` block at the origin -/
def addBlk (np n : Nat) (a : K) (v m : Nat → Nat → K) : Nat → Nat → K :=
  fun r k => if r < n ∧ k < np then m r k + a * v r k else m r k

/-- `tmp_nh`: the multipliers handed to the functions of `h`, ocp_nlp_constraints_bgh.c:1801, 1864, 1938 -/
def lamH (d : Dims) (lam : Nat → Nat → K) (i j : Nat) : K :=
  lam i (2 * d.nb i + 2 * d.ng i + d.nh i + j) + (-1) * lam i (d.nb i + d.ng i + j)

/-- output `hess_xu_p` of `disc_dyn_phi_jac_p_hess_xu_p`: `∂/∂p` of `(∂φ/∂ux)ᵀ π`,
casadi_function_generation.py:240-268 -/
def dynXP (d : Dims) (P : Prob K) (μ : Mult K) (i r k : Nat) : K :=
  ∑ c ∈ range (d.nx (i + 1)), P.fxp i c r k * μ.pi i c

/-- output `hess_xu_p` of `nl_constr_h_jac_p_hess_xu_p`: `∂/∂p` of `(∂h/∂ux)ᵀ lam_h`,
casadi_function_generation.py:813-856 -/
def conXP (d : Dims) (P : Prob K) (μ : Mult K) (i r k : Nat) : K :=
  ∑ j ∈ range (d.nh i), P.hxp i j r k * lamH d μ.lam i j

/-- one stage of `ocp_nlp_params_jac_compute`, ocp_nlp_common.c:4015-4034: dynamics
(ocp_nlp_dynamics_disc.c:815-860) or zeros, then cost (ocp_nlp_cost_external.c:1004-1061; linear least squares: no
operation), then constraints (ocp_nlp_constraints_bgh.c:1758-1831) -/
def jacStage (d : Dims) (P : Prob K) (μ : Mult K) (i : Nat) (m : Jac K) :
    (Nat → Nat → K) × (Nat → Nat → K) × (Nat → Nat → K) :=
  let lag0 :=
    if i < d.N then
      wrBlk d.np 0 (d.nu i + d.nx i) (dynXP d P μ i)
        (wrBlk d.np (d.nx i + d.nu i) (2 * d.ns i) (fun _ _ => 0) (m.lag i))
    else wrBlk d.np 0 (d.nv i) (fun _ _ => 0) (m.lag i)
  let dyn := if i < d.N then wrBlk d.np 0 (d.nx (i + 1)) (P.fp i) (m.dyn i) else m.dyn i
  let lag1 := if P.ext i then addBlk d.np (d.nu i + d.nx i) (P.scaling i) (P.lxp i) lag0 else lag0
  if 0 < d.nh i then
    (addBlk d.np (d.nx i + d.nu i) (-1) (conXP d P μ i) lag1, dyn, wrBlk d.np 0 (d.nh i) (P.hp i) (m.ineq i))
  else (lag1, dyn, m.ineq i)

/-- `ocp_nlp_params_jac_compute`, ocp_nlp_common.c:3988-4036.  `forwOpt` is `with_solution_sens_wrt_params_forw`;
`none` is `exit(1)`.  The stages touch disjoint memory, so the (possibly parallel) loop is a map. -/
def jacCompute (d : Dims) (forwOpt : Bool) (P : Prob K) (μ : Mult K) (m : Jac K) : Option (Jac K) :=
  if forwOpt then
    some
      { lag := fun i => if i ≤ d.N then (jacStage d P μ i m).1 else m.lag i
        dyn := fun i => if i ≤ d.N then (jacStage d P μ i m).2.1 else m.dyn i
        ineq := fun i => if i ≤ d.N then (jacStage d P μ i m).2.2 else m.ineq i }
  else none

/-- `ocp_qp_seed` -/
structure Seed (K : Type*) where
  g : Nat → Nat → K
  b : Nat → Nat → K
  d : Nat → Nat → K

/-- `ocp_qp_out` / `ocp_nlp_out`: primal variables with slacks, multipliers -/
structure Sol (K : Type*) where
  ux : Nat → Nat → K
  pi : Nat → Nat → K
  lam : Nat → Nat → K

/-- seeds for a global parameter, ocp_nlp_common.c:4073-4087: column `k` of the three matrices on top of zeros -/
def seedP (d : Dims) (m : Jac K) (k : Nat) : Seed K :=
  { g := fun i r => if i ≤ d.N ∧ r < d.nv i then m.lag i r k else 0
    b := fun i c => if i < d.N ∧ c < d.nx (i + 1) then m.dyn i c k else 0
    d := fun i q =>
      let o := d.nb i + d.ng i
      let u := 2 * (d.nb i + d.ng i) + d.nh i
      let lo : Nat → K := fun q => if o ≤ q ∧ q < o + d.nh i then -1 * m.ineq i (q - o) k else 0
      if i ≤ d.N then
        if u ≤ q ∧ q < u + d.nh i then lo q + (-1) * lo (o + (q - u)) else lo q
      else 0 }

/-- seeds for the initial state, ocp_nlp_common.c:4065-4071 -/
def seedX (d : Dims) (index : Nat) : Seed K :=
  { g := fun _ _ => 0
    b := fun _ _ => 0
    d := fun i q =>
      if i = 0 ∧ (q = d.nbu0 + index ∨ q = d.nbu0 + index + d.nb 0 + d.ng 0 + d.nh 0) then 1 else 0 }

/-- copy of the result into `sens_nlp_out`, ocp_nlp_common.c:4094-4104 -/
def copySol (d : Dims) (s old : Sol K) : Sol K :=
  { ux := fun i r => if i ≤ d.N ∧ r < d.nv i then s.ux i r else old.ux i r
    pi := fun i c => if i < d.N ∧ c < d.nx (i + 1) then s.pi i c else old.pi i c
    lam := fun i q => if i ≤ d.N ∧ q < 2 * d.ni i then s.lam i q else old.lam i q }

/-- the argument `field` of `ocp_nlp_common_eval_param_sens` -/
inductive Which
  | ex
  | pGlobal
  | other
deriving DecidableEq

/-- `ocp_nlp_common_eval_param_sens`, ocp_nlp_common.c:4039-4105; `none` is `exit(1)` -/
def evalParamSens (d : Dims) (forw : Seed K → Sol K) (m : Jac K) (f : Which) (stage index : Nat) (old : Sol K) :
    Option (Sol K) :=
  if f = .ex ∧ stage = 0 then some (copySol d (forw (seedX d index)) old)
  else if f = .pGlobal then some (copySol d (forw (seedP d m index)) old)
  else none

/-- seeds of the adjoint sensitivity, ocp_nlp_common.c:4131-4142 -/
def seedAdj (d : Dims) (s : Nat → Nat → K) : Seed K :=
  { g := fun i r => if i ≤ d.N ∧ r < d.nv i then s i r else 0
    b := fun _ _ => 0
    d := fun _ _ => 0 }

/-- contribution of the cost module, ocp_nlp_cost_external.c:1065-1123 -/
def adjCost (d : Dims) (P : Prob K) (y : Sol K) (i k : Nat) : K :=
  P.scaling i * ∑ r ∈ range (d.nu i + d.nx i), P.lxp i r k * y.ux i r

/-- contribution of the dynamics module, ocp_nlp_dynamics_disc.c:993-1050 -/
def adjDyn (d : Dims) (P : Prob K) (μ : Mult K) (y : Sol K) (i k : Nat) : K :=
  (∑ r ∈ range (d.nu i + d.nx i), dynXP d P μ i r k * y.ux i r) + ∑ c ∈ range (d.nx (i + 1)), P.fp i c k * y.pi i c

/-- contribution of the constraint module, ocp_nlp_constraints_bgh.c:1900-1968 -/
def adjCon (d : Dims) (P : Prob K) (μ : Mult K) (y : Sol K) (i k : Nat) : K :=
  if 0 < d.nh i then
    (∑ r ∈ range (d.nu i + d.nx i), conXP d P μ i r k * y.ux i r)
      + ∑ j ∈ range (d.nh i), P.hp i j k * lamH d y.lam i j
  else 0

/-- the accumulation loop, ocp_nlp_common.c:4147-4170, entry `k` of `out_np_global`; `none` is the `exit(1)` of the
linear least-squares module -/
def adjLoop (d : Dims) (P : Prob K) (μ : Mult K) (y : Sol K) : List Nat → (Nat → K) → Option (Nat → K)
  | [], acc => some acc
  | i :: is, acc =>
    if P.ext i then
      let a1 : Nat → K := fun k => acc k + adjCost d P y i k
      let a2 : Nat → K := if i < d.N then fun k => a1 k + adjDyn d P μ y i k else a1
      adjLoop d P μ y is (fun k => a2 k + adjCon d P μ y i k)
    else none

/-- `ocp_nlp_common_eval_solution_sens_adj_p`, ocp_nlp_common.c:4108-4178: the gradient `grad_p` -/
def evalAdjP (d : Dims) (adjOpt : Bool) (adj : Seed K → Sol K) (P : Prob K) (μ : Mult K) (f : Which)
    (s : Nat → Nat → K) : Option (Nat → K) :=
  if adjOpt then
    let y := adj (seedAdj d s)
    if f = .pGlobal then adjLoop d P μ y (List.range (d.N + 1)) (fun _ => 0) else none
  else none

/-- `eval_grad_p` of the cost: ocp_nlp_cost_external.c:1125-1177 (scaled), ocp_nlp_cost_ls.c (zero) -/
def gradCost (P : Prob K) (i k : Nat) : K := if P.ext i then P.scaling i * P.lp i k else 0

/-- `compute_adj_p` of the dynamics, ocp_nlp_dynamics_disc.c:942-989 -/
def gradDyn (d : Dims) (P : Prob K) (μ : Mult K) (i k : Nat) : K :=
  ∑ c ∈ range (d.nx (i + 1)), P.fp i c k * μ.pi i c

/-- `compute_adj_p` of the constraints, ocp_nlp_constraints_bgh.c:1834-1897 -/
def gradCon (d : Dims) (P : Prob K) (μ : Mult K) (i k : Nat) : K :=
  if 0 < d.nh i then ∑ j ∈ range (d.nh i), P.hp i j k * lamH d μ.lam i j else 0

/-- `ocp_nlp_common_eval_lagr_grad_p`, ocp_nlp_common.c:4181-4225 (field `p_global`) -/
def lagrGrad (d : Dims) (P : Prob K) (μ : Mult K) (k : Nat) : K :=
  ((List.range d.N).foldl (fun a i => a + gradDyn d P μ i k + gradCost P i k + gradCon d P μ i k) 0)
    + gradCost P d.N k

/-! ## Options around the factorisation -/

/-- options of the QP solver touched by `ocp_nlp_common_setup_qp_matrices_and_factorize` -/
structure QpOpts (K : Type*) where
  initFromOut : Bool
  warmStart : Int
  iterMax : Int
  updFactExit : Int
  t0Min : K
  lam0Min : K

/-- options of the NLP solver used there -/
structure NlpOpts (K : Type*) where
  qpWarmStart : Int
  qpIterMax : Int
  tLamMin : K

/-- options seen by the QP solver during the factorisation, ocp_nlp_common.c:3942-3964 -/
def setupBefore (n : NlpOpts K) (o : QpOpts K) : QpOpts K :=
  { o with initFromOut := true, warmStart := 3, iterMax := 0, updFactExit := 1, t0Min := n.tLamMin
           lam0Min := n.tLamMin }

/-- options after the call, ocp_nlp_common.c:3966-3973; the QP call (a parameter returning its status) clears
`initialize_next_xcond_qp_from_qp_out` (ocp_qp_xcond_solver.c:554-558) and changes no other option; the second
component is the returned status, ocp_nlp_common.c:3975-3985 -/
def setup (n : NlpOpts K) (qp : QpOpts K → Status) (o : QpOpts K) : QpOpts K × Status :=
  let s := qp (setupBefore n o)
  ({ setupBefore n o with initFromOut := false, warmStart := n.qpWarmStart, iterMax := n.qpIterMax
                          t0Min := o.t0Min, lam0Min := o.lam0Min },
   if s ≠ .success ∧ s ≠ .maxIter then .qpFailure else .success)

end Acados.PSens
