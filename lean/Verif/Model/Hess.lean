import Verif.Model.Cost
/-!
# Assembly of the Hessian blocks of the QP

`ocp_nlp_approximate_qp_matrices` (`acados/ocp_nlp/ocp_nlp_common.c`) calls, for every stage, the dynamics, the cost
and the constraint module, in this order; each writes into or adds to the same block `RSQrq`.  Which of them writes
and which adds is decided by option flags set through `ocp_nlp_opts_set`.  This file models the flags, the writes and
the variant of `ocp_nlp_sqp_with_feasible_qp.c` with two separate blocks.

Blocks are functions of row and column; only the lower triangle (`j ≤ i`) is meaningful, because the cost modules
write only that and the QP reads only that.  `int` options are Booleans (zero / nonzero).
-/
namespace Acados.Hess
open Finset
open Acados.Cost (LsState NlsModel NlsMem NlsOpts ConlModel ExtModel Point Ext lsRSQ nlsRSQ conlUpdate extHess)
variable {K : Type*} [Field K] [DecidableEq K]

/-- Hessian block -/
abbrev Blk (K : Type*) := Nat → Nat → K

/-- the cost module of a stage with everything its Hessian depends on -/
inductive CostMod (K : Type*)
  /-- linear least squares -/
  | ls (d : Cost.Dims) (s : LsState K) (p : Point K)
  /-- nonlinear least squares -/
  | nls (d : Cost.Dims) (m : NlsModel K) (mem : NlsMem K) (p : Point K)
  /-- convex over nonlinear -/
  | conl (d : Cost.Dims) (e : Ext K) (m : ConlModel K) (p : Point K)
  /-- external cost with exact Hessian; the block is what `oob` is to `extHess` -/
  | ext (d : Cost.Dims) (oob : Blk K) (m : ExtModel K) (p : Point K)
  /-- external cost with a Hessian given by the user (`use_numerical_hessian`), block and scaling -/
  | extNum (scaling : K) (H : Blk K)

/-- flags of a cost module -/
structure CostOpts where
  /-- `add_hess_contribution` -/
  add : Bool
  /-- `gauss_newton_hess` -/
  gaussNewton : Bool
  /-- `compute_hess`, linear least squares only -/
  compute : Bool
  /-- `integrator_cost`, nonlinear least squares and convex over nonlinear only -/
  integrator : Bool

/-- what the update of a cost module does to the block: ocp_nlp_cost_ls.c:920-968, ocp_nlp_cost_nls.c:861-999,
ocp_nlp_cost_conl.c:720-835, ocp_nlp_cost_external.c:769-825.  `none` is `exit(1)`.  The external module uses
`dgead`/`dgecpsc` followed by additions (lines 797-824), so the earlier content enters as a summand. -/
def costWrite (o : CostOpts) (prev : Blk K) : CostMod K → Option (Blk K)
  | .ls d s p => some (if o.compute then lsRSQ d o.add { s with mem := { s.mem with RSQ := prev } } p else prev)
  | .nls d m mem p =>
    if o.integrator then some prev
    else nlsRSQ d ⟨o.gaussNewton, false, o.add⟩ m { mem with RSQ := prev } p
  | .conl d e m p => some (if o.integrator then prev else (conlUpdate d e o.add m prev p).1)
  | .ext d oob m p => some (if o.add then fun i j => prev i j + extHess d oob m p i j else extHess d oob m p)
  | .extNum s H => some (if o.add then fun i j => prev i j + s * H i j else fun i j => s * H i j)

/-- what the dynamics module of a stage delivers -/
structure DynMod (K : Type*) where
  /-- Hessian of the multiplier-weighted discrete dynamics: integrator output or external function -/
  H : Blk K
  /-- the integrator also propagates the cost (`cost_computation`) -/
  costComputation : Bool
  /-- Hessian of the propagated cost -/
  costH : Blk K
  /-- scaling of the cost of this stage -/
  scaling : K

/-- writes of the dynamics module: ocp_nlp_dynamics_cont.c:882-921, ocp_nlp_dynamics_disc.c:700-729 (there
`cost_computation` is 0); `add` is the flag of the cost module, read through a pointer -/
def dynWrite (compute add : Bool) (m : DynMod K) (prev : Blk K) : Blk K :=
  let r := if compute then m.H else prev
  if m.costComputation then
    if add then fun i j => r i j + m.scaling * m.costH i j else fun i j => m.scaling * m.costH i j
  else r

/-- a constraint module.  `bgp` (constraints `φ(r(x, u))`): `jr` is `jac_r_ux_tran`, the transposed Jacobian of `r`,
`hphi` is `tmp_nr_nphi_nr`, the Hessians of the components of `φ` in `r`, one below the other.  For `bgh` the external
function returns, for given multipliers, the Hessians with respect to `(u, x)` and with respect to `z`, and `dz i k` is
`dzduxt`.  The number of bounds and general constraints only fixes where the multipliers of the nonlinear constraints
are. -/
inductive ConMod (K : Type*)
  | bgp (nb ng nphi nr : Nat) (lam : Nat → K) (jr hphi : Nat → Nat → K)
  | bgh (nb ng nh nz : Nat) (lam : Nat → K) (hux hzz : (Nat → K) → Blk K) (dz : Nat → Nat → K)

/-- multiplier given to the external function, ocp_nlp_constraints_bgh.c:1350 (`blasfeo_daxpy`): upper minus lower -/
def hMult (nb ng nh : Nat) (lam : Nat → K) (j : Nat) : K := -1 * lam (nb + ng + j) + lam (2 * nb + 2 * ng + nh + j)

/-- one pass of the loop "add SCQP Hessian contribution", ocp_nlp_constraints_bgp.c:1301-1313: `blasfeo_dgemm_nt` and
`blasfeo_dsyrk_ln` (which writes the lower triangle only) -/
def scqpStep (nb ng nphi nr : Nat) (lam : Nat → K) (jr hphi : Nat → Nat → K) (prev : Blk K) (p : Nat) : Blk K :=
  let lamI := lam (2 * (nb + ng) + nphi + p)
  let tmp : Blk K := fun i c => lamI * ∑ d ∈ range nr, jr i d * hphi (nr * p + c) d
  fun i j => if j ≤ i then prev i j + ∑ c ∈ range nr, tmp i c * jr j c else prev i j

/-- what the `bgh` module adds, ocp_nlp_constraints_bgh.c:1379-1396, and the `bgp` module, starting from zero -/
def conHess : ConMod K → Blk K
  | .bgp nb ng nphi nr lam jr hphi => (List.range nphi).foldl (scqpStep nb ng nphi nr lam jr hphi) fun _ _ => 0
  | .bgh nb ng nh nz lam hux hzz dz => fun i j =>
    let mu := hMult nb ng nh lam
    (∑ k ∈ range nz, dz i k * ∑ l ∈ range nz, hzz mu k l * dz j l) + hux mu i j

/-- effect of the constraint update on the block, ocp_nlp_constraints_bgh.c:1313-1396 and
ocp_nlp_constraints_bgp.c:1301-1313 (whatever the options are), 1349-1353 (`none`: `exit(1)`) -/
def conWrite (compute : Bool) (prev : Blk K) : ConMod K → Option (Blk K)
  | .bgp nb ng nphi nr lam jr hphi =>
    if compute then none else some ((List.range nphi).foldl (scqpStep nb ng nphi nr lam jr hphi) prev)
  | .bgh nb ng nh nz lam hux hzz dz =>
    some (if 0 < nh ∧ compute then fun i j => prev i j + conHess (.bgh nb ng nh nz lam hux hzz dz) i j else prev)

/-- everything a stage contributes; `dyn` is `none` at the terminal stage -/
structure StageMods (K : Type*) where
  dyn : Option (DynMod K)
  cost : CostMod K
  con : ConMod K

/-- flags of one stage -/
structure StageOpts where
  /-- `compute_hess` of the dynamics module -/
  dynHess : Bool
  cost : CostOpts
  /-- `compute_hess` of the constraint module -/
  conHess : Bool

/-- dynamics part of one stage, ocp_nlp_common.c:3039-3043 -/
def dynPart (o : StageOpts) (m : StageMods K) (prev : Blk K) : Blk K :=
  match m.dyn with
  | some dm => dynWrite o.dynHess o.cost.add dm prev
  | none => prev

/-- one stage of `ocp_nlp_approximate_qp_matrices`, ocp_nlp_common.c:3028-3052 -/
def stage (o : StageOpts) (m : StageMods K) (prev : Blk K) : Option (Blk K) :=
  (costWrite o.cost (dynPart o m prev) m.cost).bind fun r => conWrite o.conHess r m.con

/-! ## Options -/

/-- defaults: ocp_nlp_dynamics_cont.c:264-270, ocp_nlp_dynamics_disc.c:204-206, ocp_nlp_cost_ls.c:495-496,
ocp_nlp_cost_nls.c:433-434, ocp_nlp_cost_conl.c:367-368, ocp_nlp_cost_external.c:391-394,
ocp_nlp_constraints_bgh.c:811, ocp_nlp_constraints_bgp.c:797.  `integrator_cost` is not initialised; the generated code
sets it (`acados_solver.in.c` 2680-2687), here it is given. -/
def defaultStage (integrator : Bool) : StageOpts := ⟨false, ⟨false, true, true, integrator⟩, false⟩

/-- calls of `ocp_nlp_opts_set` that concern the Hessian -/
inductive OptCall
  | exactHess (v : Bool)
  | exactHessCost (v : Bool)
  | exactHessDyn (v : Bool)
  | exactHessConstr (v : Bool)

/-- `opts_set(..., "exact_hess", v)` of a cost module: ocp_nlp_cost_nls.c:460-471, ocp_nlp_cost_ls.c:517-520,
ocp_nlp_cost_external.c:418-421; the convex-over-nonlinear module does not know the field
(ocp_nlp_cost_conl.c:413-417): `none` -/
def costSetExact (v : Bool) (o : CostOpts) : CostMod K → Option CostOpts
  | .conl .. => none
  | .nls .. => some { o with gaussNewton := !v }
  | _ => some o

/-- effect of one call on one stage; `term` for the terminal stage.  ocp_nlp_common.c:1485-1550 -/
def setStage (term : Bool) (c : CostMod K) (o : StageOpts) : OptCall → Option StageOpts
  | .exactHess v =>
    (costSetExact v o.cost c).map fun co =>
      { dynHess := if term then o.dynHess else v
        cost := if term then co else { co with add := v }
        conHess := v }
  | .exactHessCost v => (costSetExact v o.cost c).map fun co => { o with cost := co }
  | .exactHessDyn v =>
    some (if term then o else
      { o with dynHess := v
               cost := if v then o.cost else { o.cost with add := false } })
  | .exactHessConstr v => some { o with conHess := v }

/-- a sequence of calls -/
def setAll (term : Bool) (c : CostMod K) (o : StageOpts) (l : List OptCall) : Option StageOpts :=
  l.foldlM (setStage term c) o

/-! ## Fixed Hessian -/

/-- precomputation with `fixed_hess`, ocp_nlp_common.c:3553-3560: one linearisation, then the Hessian computation of the
cost modules is switched off; only the linear least-squares module knows that field (`none`: `exit(1)`) -/
def fixedPrecompute (o : StageOpts) (m : StageMods K) (prev : Blk K) : Option (StageOpts × Blk K) :=
  (stage o m prev).bind fun r =>
    match m.cost with
    | .ls .. => some ({ o with cost := { o.cost with compute := false } }, r)
    | _ => none

/-! ## SQP with feasible QP -/

/-- blocks of one stage in `ocp_nlp_sqp_with_feasible_qp.c` -/
structure FqpBlks (K : Type*) where
  constr : Blk K
  cost : Blk K
  nominal : Blk K
  relaxed : Blk K

/-- `set_pointers_for_hessian_evaluation` (ocp_nlp_sqp_with_feasible_qp.c:855-902), the linearisation with the dynamics
and constraint modules writing to `RSQ_constr` and the cost module to `RSQ_cost`, and
`setup_hessian_matrices_for_qps` (906-945, before the Levenberg-Marquardt term) -/
def fqpStage (useConstr : Bool) (o : StageOpts) (m : StageMods K) (b : FqpBlks K) : Option (FqpBlks K) :=
  let c0 : Blk K := match m.dyn with
    | none => fun _ _ => 0
    | some _ => if o.dynHess then b.constr else fun _ _ => 0
  let o' : StageOpts := { o with cost := { o.cost with add := false } }
  (costWrite o'.cost b.cost m.cost).bind fun rc =>
    (conWrite o'.conHess (dynPart o' m c0) m.con).map fun rk =>
      { constr := rk
        cost := rc
        nominal := fun i j => rk i j + rc i j
        relaxed := if useConstr then rk else b.relaxed }

/-- `ocp_nlp_add_levenberg_marquardt_term` (ocp_nlp_common.c:2970-2996) for one stage: the routine has a parameter
`qp_in` but adds to `mem->qp_in`, the nominal QP.  `forRelaxed` says which QP the caller passed
(ocp_nlp_sqp_with_feasible_qp.c:944 passes the nominal one, line 991 the one about to be solved). -/
def addLM (_forRelaxed : Bool) (lm scaling : K) (b : FqpBlks K) : FqpBlks K :=
  { b with nominal := fun i j => if i = j then b.nominal i j + scaling * lm else b.nominal i j }

end Acados.Hess
