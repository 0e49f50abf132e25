import Verif.Model.Num
import Mathlib.Algebra.BigOperators.Group.Finset.Basic
import Mathlib.Algebra.Order.BigOperators.Group.Finset
/-!
# Merit-function backtracking (`acados/ocp_nlp/ocp_nlp_globalization_merit_backtracking.c`)

Vectors are functions `Nat → D`; loops that only accumulate a sum are written as finite sums.  The
evaluation of the merit function at a trial point is an arbitrary oracle in the line search; the
formula used by the oracle is `meritFun` below.  `bad` is `isnan || isinf`.
-/
namespace Acados.Merit
open Finset

variable {D : Type*} [Add D] [Sub D] [Mul D] [Div D] [Neg D] [LT D] [LE D]
  [DecidableLT D] [DecidableLE D] [NatCast D]

/-- decimal literals of the C source -/
def lit (n d : Nat) : D := (n : D) / (d : D)

/-- `ocp_nlp_globalization_opts` defaults and setters (globalization_common.c:77-148); the setters
do not validate anything. -/
structure Opts (D : Type*) where
  useSOC : Bool
  sufficientDescent : Bool
  alphaMin : D
  alphaReduction : D
  eps : D

def Opts.default : Opts D := ⟨false, false, lit 1 20, lit 7 10, lit 1 10000⟩

inductive OptSet (D : Type*) where
  | useSOC (b : Bool) | sufficientDescent (b : Bool) | alphaMin (v : D) | alphaReduction (v : D)
  | eps (v : D)

/-- `ocp_nlp_globalization_opts_set` (globalization_common.c:106-148) -/
def Opts.set (o : Opts D) : OptSet D → Opts D
  | .useSOC b => { o with useSOC := b }
  | .sufficientDescent b => { o with sufficientDescent := b }
  | .alphaMin v => { o with alphaMin := v }
  | .alphaReduction v => { o with alphaReduction := v }
  | .eps v => { o with eps := v }

/-! ## Merit weights -/

/-- `fabs` written with comparisons -/
def cabs (zero : D) (x : D) : D := if x < zero then -x else x

/-- one equality weight, `merit_backtracking_initialize_weights`, merit_backtracking.c:712-717 -/
def initWeightEq (pi : D) : D := cabs (lit 0 1) pi
/-- one inequality weight, merit_backtracking.c:719-722: plain copy -/
def initWeightIneq (lam : D) : D := lam
/-- one equality weight, `merit_backtracking_update_weights`, merit_backtracking.c:733-744 -/
def updateWeightEq (w pi : D) : D :=
  let t0 := cabs (lit 0 1) pi
  let t1 := lit 1 2 * (t0 + w)
  if t0 > t1 then t0 else t1
/-- one inequality weight, merit_backtracking.c:745-755 -/
def updateWeightIneq (w lam : D) : D :=
  let t1 := lit 1 2 * (lam + w)
  if lam > t1 then lam else t1

/-- weights of all equality / inequality constraints (flattened over stages) -/
structure Weights (D : Type*) where
  pi : List D
  lam : List D

/-- `merit_backtracking_initialize_weights`, merit_backtracking.c:705-723 -/
def initWeights (pi lam : List D) : Weights D := ⟨pi.map initWeightEq, lam.map initWeightIneq⟩
/-- `merit_backtracking_update_weights`, merit_backtracking.c:725-755 -/
def updateWeights (w : Weights D) (pi lam : List D) : Weights D :=
  ⟨List.zipWith updateWeightEq w.pi pi, List.zipWith updateWeightIneq w.lam lam⟩

/-! ## Line search -/

/-- state of one call of `ocp_nlp_line_search` that matters outside: status and `alpha` -/
structure LsResult (D : Type*) where
  status : Status
  alpha : D

/-- the `for` loop of `ocp_nlp_line_search`, merit_backtracking.c:367-397, and the exit code
399-407.  `last` is `merit_fun1`.  Fuel-bounded; `none` = still running. -/
def lsLoop (o : Opts D) (bad : D → Bool) (merit : Nat → D → D) (merit0 dmerit : D) :
    Nat → Nat → D → D → Option (LsResult D)
  | 0, _, _, _ => none
  | fuel + 1, j, alpha, last =>
    if alpha * o.alphaReduction > o.alphaMin then
      let m1 := merit j alpha
      if decide (m1 < merit0 + o.eps * dmerit * alpha) && !bad m1 then
        some ⟨.success, alpha⟩
      else lsLoop o bad merit merit0 dmerit fuel (j + 1) (alpha * o.alphaReduction) m1
    else if bad last then some ⟨.nanDetected, alpha⟩
    else some ⟨.minStep, alpha⟩

/-- `ocp_nlp_line_search`, merit_backtracking.c:290-408 (weights are updated by the caller of this
definition).  `grad` is the value of `ocp_nlp_compute_merit_gradient`. -/
def lineSearch (o : Opts D) (bad : D → Bool) (merit : Nat → D → D) (merit0 grad : D)
    (fuel : Nat) : Option (LsResult D) :=
  let dmerit := if o.sufficientDescent then (if grad > lit 0 1 then lit 0 1 else grad) else lit 0 1
  lsLoop o bad merit merit0 dmerit fuel 0 (lit 1 1) (lit 0 1)

/-- outcome of `ocp_nlp_line_search_merit_check_full_step`, merit_backtracking.c:493-569 -/
def checkFullStep (bad : D → Bool) (merit0 merit1 viol0 viol1 : D) : Status :=
  if bad merit1 then .nanDetected
  else if merit1 < merit0 ∧ viol1 < viol0 then .success
  else .minStep

/-- Everything outside the globalization code that one call depends on. -/
structure Env (D X : Type*) where
  /-- merit at the current iterate, at the full step, violations (pre-check of the SOC branch) -/
  pre0 : D
  pre1 : D
  viol0 : D
  viol1 : D
  /-- did the SOC QP fail (status QP_FAILURE) -/
  socFails : Bool
  /-- merit function at the current iterate and at trial `j` with step `alpha`, in the line search -/
  merit0 : D
  merit : Nat → D → D
  grad : D
  /-- `step_update(.., alpha)` for the QP solution before / after the second order correction -/
  step : D → X
  stepSoc : D → X

/-- the check of the SOC branch, `ocp_nlp_soc_line_search`, merit_backtracking.c:571-602: may the
full step be taken without a line search? -/
def takeFullStep {X : Type*} (o : Opts D) (bad : D → Bool) (env : Env D X) : Bool :=
  o.useSOC && decide (checkFullStep bad env.pre0 env.pre1 env.viol0 env.viol1 = .success)
/-- is a second order correction computed? -/
def doSoc {X : Type*} (o : Opts D) (bad : D → Bool) (env : Env D X) : Bool :=
  o.useSOC && decide (checkFullStep bad env.pre0 env.pre1 env.viol0 env.viol1 = .minStep)

/-- `ocp_nlp_globalization_merit_backtracking_find_acceptable_iterate`,
merit_backtracking.c:858-897, with `ocp_nlp_soc_line_search` (571-602) inlined.
Returns status, step size and iterate. `x` is the current iterate.  (`merit`/`merit0`/`grad` of
the environment are those seen by the line search, i.e. after a possible correction.) -/
def findAcceptable {X : Type*} (o : Opts D) (bad : D → Bool) (env : Env D X) (x : X) (alphaOld : D)
    (fuel : Nat) : Option (Status × D × X) :=
  if takeFullStep o bad env then some (.success, lit 1 1, env.step (lit 1 1))
  else if doSoc o bad env && env.socFails then some (.qpFailure, alphaOld, x)
  else
    match lineSearch o bad env.merit env.merit0 env.grad fuel with
    | none => none
    | some r =>
      if r.status = .nanDetected then some (.nanDetected, r.alpha, x)
      else some (.success, r.alpha, (if doSoc o bad env then env.stepSoc else env.step) r.alpha)

/-! ## DDP line search -/

/-- `while` loop of `ocp_nlp_ddp_backtracking_line_search`, merit_backtracking.c:774-825.
`trial j alpha` is the trial iterate and its cost.  Returns status, `mem->alpha`, the accepted cost
and the content of `tmp_nlp_out`. -/
def ddpLoop {X : Type*} (o : Opts D) (pred cost : D) (trial : Nat → D → X × D) :
    Nat → Nat → D → Option (Status × D × D × X)
  | 0, _, _ => none
  | fuel + 1, j, alpha =>
    let t := trial j alpha
    if t.2 - cost ≤ cmin (-o.eps * alpha * cmax pred (lit 0 1) + lit 1 1000000000000000000) (lit 0 1)
    then some (.success, alpha, t.2, t.1)
    else
      let alpha' := alpha * o.alphaReduction
      if alpha' < o.alphaMin then some (.minStep, lit 0 1, cost, t.1)
      else ddpLoop o pred cost trial fuel (j + 1) alpha'

/-- `ocp_nlp_globalization_merit_backtracking_find_acceptable_iterate_for_ddp`,
merit_backtracking.c:827-855: the iterate is replaced only on success.
Returns status, `mem->alpha`, cost value and iterate. -/
def ddpFind {X : Type*} (o : Opts D) (qpCost cost : D) (trial : Nat → D → X × D)
    (x : X) (fuel : Nat) : Option (Status × D × D × X) :=
  match ddpLoop o (-qpCost) cost trial fuel 0 (lit 1 1) with
  | none => none
  | some (st, a, c, t) =>
    if st = .success then some (.success, a, c, t) else some (.minStep, a, c, x)

/-! ## Merit function and its directional derivative -/

/-- Data of one stage used by the merit function and its gradient.  `c` is the inequality vector
(`ni = nb+ng` here; the slack-bound part is separate), ordered lower then upper. -/
structure Stage (K : Type*) where
  nux : Nat
  nb : Nat
  ng : Nat
  ns : Nat
  /-- number of entries of the inequality vector behind the first `2*(nb+ng)` (slack bounds) -/
  extra : Nat
  cost : K
  costGrad : Nat → K
  nv : Nat
  /-- inequality values and merit weights -/
  c : Nat → K
  w : Nat → K
  /-- QP step `qp_out->ux` -/
  step : Nat → K
  idxb : Nat → Nat
  DCt : Nat → Nat → K
  idxsRev : Nat → Option Nat
  /-- dynamics gap of this stage to the next one and its weights; `nxn` entries (0 at the last stage) -/
  nxn : Nat
  gap : Nat → K
  wpi : Nat → K
  /-- directional derivative of the gap computed at merit_backtracking.c:183-192 -/
  dgap : Nat → K

section Field
variable {K : Type*} [Field K] [LinearOrder K]

/-- merit contribution of one stage, `ocp_nlp_evaluate_merit_fun`, merit_backtracking.c:656-696 -/
def meritStage (s : Stage K) : K :=
  s.cost + (∑ j ∈ range s.nxn, abs (s.wpi j) * abs (s.gap j)) +
    ∑ j ∈ range (2 * (s.nb + s.ng) + s.extra), if s.c j > 0 then abs (s.w j) * s.c j else 0

/-- `ocp_nlp_evaluate_merit_fun`, merit_backtracking.c:606-702 (the three partial sums are
accumulated separately in C and added; here per stage) -/
def meritFun (N : Nat) (s : Nat → Stage K) : K := ∑ i ∈ range (N + 1), meritStage (s i)

/-- direction of constraint row `k < nb+ng` (bound or general), the four branches
merit_backtracking.c:249-275 -/
def rowDir (s : Stage K) (k : Nat) : K :=
  if k < s.nb then s.step (s.idxb k) else ∑ r ∈ range s.nux, s.DCt r (k - s.nb) * s.step r

/-- step of the slack that relaxes entry `j` of the inequality vector (0 if it is not softened),
merit_backtracking.c:229-243 -/
def slackStep (s : Stage K) (j : Nat) : K :=
  let n := s.nb + s.ng
  match s.idxsRev (if j < n then j else j - n) with
  | some is => s.step (if j < n then s.nux + is else s.nux + is + s.ns)
  | none => 0

/-- one summand of the inequality part of the gradient, merit_backtracking.c:222-276 -/
def gradIneq (s : Stage K) (j : Nat) : K :=
  let n := s.nb + s.ng
  if s.c j > 0 then s.w j * rowDir s (if j < n then j else j - n) - s.w j * slackStep s j else 0

/-- `ocp_nlp_compute_merit_gradient`, merit_backtracking.c:148-288, one stage -/
def gradStage (s : Stage K) : K :=
  (∑ r ∈ range s.nv, s.costGrad r * s.step r) +
  (∑ j ∈ range s.nxn, if s.gap j > 0 then s.wpi j * s.dgap j else -(s.wpi j * s.dgap j)) +
  ∑ j ∈ range (2 * (s.nb + s.ng)), gradIneq s j

/-- `ocp_nlp_compute_merit_gradient`, merit_backtracking.c:148-288 -/
def meritGrad (N : Nat) (s : Nat → Stage K) : K := ∑ i ∈ range (N + 1), gradStage (s i)

end Field

end Acados.Merit
