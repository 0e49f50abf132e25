import Verif.Model.SqpLoop
/-!
# The loop of SQP_WITH_FEASIBLE_QP (`acados/ocp_nlp/ocp_nlp_sqp_with_feasible_qp.c`)

As in `Verif.Model.SqpLoop` the numerical work of an iteration is an oracle; the model is the control
logic: search direction modes, watchdog, status, statistics, warm start and regularisation calls.  The
relaxed QP itself is in `Verif.Model.Wfqp`.  Prints, timers other than the timeout logic, OpenMP, the
predicted reductions handed to the globalization and `warm_start_first_qp_from_nlp` are not modelled.
-/
namespace Acados.WfqpLoop
open Acados.Sqp (Res Heur)

/-- `ocp_nlp_sqp_wfqp` search direction modes, acados/utils/types.h:121-126; `other` is any other
integer -/
inductive Mode where
  | nominal | bo | feas | other
  deriving DecidableEq, Repr

/-- the QPs that are solved: the nominal QP (ocp_nlp_sqp_with_feasible_qp.c:1471), the feasibility QP
(1198) and the nominal QP with the relaxed bounds (1222) -/
inductive Kind where
  | nominal | feas | bo
  deriving DecidableEq, Repr

/-- which QP the regularisation module points to -/
inductive Target where
  | nominal | relaxed
  deriving DecidableEq, Repr

/-- options, `ocp_nlp_sqp_wfqp_opts` and `ocp_nlp_opts` -/
structure Opts (K : Type*) extends Sqp.Opts K where
  mode : Mode
  /-- `watchdog_zero_slacks_max` (default 2, ocp_nlp_sqp_with_feasible_qp.c:120; no setter) -/
  watchdogMax : Int
  /-- `allow_direction_mode_switch_to_nominal` -/
  allow : Bool
  /-- `use_constraint_hessian_in_feas_qp` -/
  useCon : Bool
  logPi : Bool
  logLam : Bool

/-- oracles; all may depend on the iteration number -/
structure Env (K X : Type*) where
  res : X → Res
  cost : X → Dbl
  toc : Nat → K
  /-- status of the QP solver for the three QPs -/
  qp : Kind → Nat → X → Status
  /-- `calculate_qp_l1_infeasibility` -/
  l1 : Nat → X → Dbl
  /-- `mem->absolute_nns` -/
  nns : Nat
  stepNorm : Nat → X → Dbl
  glob : Nat → X → Status
  globX : Nat → X → X
  globCost : Nat → X → Dbl → Dbl

/-- observable actions -/
inductive Ev (X : Type*) where
  | store (i : Nat) (x : X)
  | evalRes (x : X)
  | stat (row col : Nat)
  /-- a search direction is computed, starting in this mode -/
  | direction (m : Mode)
  /-- the Hessian of this QP is regularised (995-996) -/
  | reg (t : Target)
  /-- a QP was solved with this status and `warm_start` level -/
  | qp (k : Kind) (st : Status) (warmStart : Int)
  /-- outcome of the test for zero slacks (1513) -/
  | slack (zero : Bool)
  /-- `search_direction_mode := m` (1485, 1521) -/
  | switch (m : Mode)
  | logPrimal (i : Nat)
  | logDual (i : Nat)
  | glob (s : Status)

structure St (K X : Type*) where
  statM : Nat
  /-- option `warm_start` inside the QP solver -/
  warmStart : Int
  iter : Nat
  x : X
  res : Res
  cost : Dbl
  stepNorm : Dbl
  est : K
  prevTot : K
  timeTot : K
  /-- `nlp_mem->status` -/
  status : Status
  mode : Mode
  /-- `watchdog_zero_slacks_counter` -/
  counter : Int
  /-- `qps_solved_in_iter` -/
  qps : Nat
  regPtr : Target
  log : List (Ev X)

variable {K X : Type*} [Field K] [LinearOrder K] [IsStrictOrderedRing K]

/-- append to the log -/
def St.emit (s : St K X) (l : List (Ev X)) : St K X := { s with log := s.log ++ l }

/-- `prepare_and_solve_QP`, ocp_nlp_sqp_with_feasible_qp.c:948-1069.  Regularisation (985-998) works on
the QP the regularisation module points to; `ocp_nlp_solve_qp_and_correct_dual` (ocp_nlp_common.c:4431,
4555-4558) redirects it during the QP solution and points it back to the nominal QP at the end. -/
def solveQp (o : Opts K) (k : Kind) (st : Status) (s : St K X) : St K X :=
  { s with
    log := s.log ++
      (if s.qps < 2 ∧ (k ≠ .feas ∨ o.useCon = true) then [.reg s.regPtr] else []) ++
      [.qp k st (if s.iter = 0 ∧ o.warmStartFirst = false then 0 else s.warmStart)]
    qps := s.qps + 1
    regPtr := if k ≠ .feas ∨ o.useCon = true then .nominal else s.regPtr
    warmStart := if s.iter = 0 then o.qpWarmStart else s.warmStart
    status := if st ≠ .success then .qpFailure else s.status }

/-- `log_qp_stats`, ocp_nlp_sqp_with_feasible_qp.c:1071-1098 -/
def logQp (feasQp : Bool) (s : St K X) : St K X :=
  if s.iter < s.statM then
    match s.mode with
    | .nominal => s.emit [.stat s.iter 4, .stat s.iter 5]
    | .bo => if feasQp then s.emit [.stat s.iter 6, .stat s.iter 7]
        else s.emit [.stat s.iter 8, .stat s.iter 9]
    | _ => s
  else s

/-- `byrd_omojokun_direction_computation`, ocp_nlp_sqp_with_feasible_qp.c:1167-1237 -/
def boDir (o : Opts K) (e : Env K X) (s : St K X) : Status × St K X :=
  let s1 := logQp true (solveQp o .feas (e.qp .feas s.iter s.x) s)
  if e.qp .feas s.iter s.x ≠ .success then (.qpFailure, { s1 with status := .qpFailure })
  else
    let s2 := logQp false (solveQp o .bo (e.qp .bo s.iter s.x) s1)
    if e.qp .bo s.iter s.x ≠ .success then (.qpFailure, { s2 with status := .qpFailure })
    else (.success, s2)

/-- the test of ocp_nlp_sqp_with_feasible_qp.c:1513 -/
def zeroSlacks (o : Opts K) (e : Env K X) (s : St K X) : Bool :=
  decide (e.l1 s.iter s.x / cmax 1 (e.nns : Dbl) < o.tolIneq)

/-- ocp_nlp_sqp_with_feasible_qp.c:1507-1522: watchdog -/
def watchdog (o : Opts K) (e : Env K X) (s : St K X) : St K X :=
  let z := zeroSlacks o e s
  let s1 := { s with counter := if z then s.counter + 1 else s.counter, log := s.log ++ [.slack z] }
  if o.allow = true ∧ s1.counter = o.watchdogMax then
    { s1 with counter := 0, mode := .nominal, log := s1.log ++ [.switch .nominal] }
  else s1

/-- the `BYRD_OMOJOKUN` branch, ocp_nlp_sqp_with_feasible_qp.c:1492-1525 -/
def boPart (o : Opts K) (e : Env K X) (s : St K X) : Status × St K X :=
  let r := boDir o e s
  (r.1, watchdog o e r.2)

/-- `calculate_search_direction`, ocp_nlp_sqp_with_feasible_qp.c:1451-1546.  The modes `feas` and `other`
return the integer 1, which is `ACADOS_NAN_DETECTED`. -/
def searchDir (o : Opts K) (e : Env K X) (s : St K X) : Status × St K X :=
  let s0 : St K X := { s with qps := 0, log := s.log ++ [.direction s.mode] }
  match s0.mode with
  | .nominal =>
    let s1 := logQp false (solveQp o .nominal (e.qp .nominal s.iter s.x) s0)
    if e.qp .nominal s.iter s.x ≠ .success then
      boPart o e { s1 with mode := .bo, log := s1.log ++ [.switch .bo] }
    else (.success, s1)
  | .bo => boPart o e s0
  | _ => (.nanDetected, s0)

/-- `check_termination`, ocp_nlp_sqp_with_feasible_qp.c:525-616: the same tests in the same order as
in ocp_nlp_sqp.c -/
def checkTermination (o : Opts K) (s : St K X) : Option Status :=
  Sqp.checkTermination o.toOpts s.iter s.res s.stepNorm s.cost s.timeTot s.est

/-- ocp_nlp_sqp_with_feasible_qp.c:1629-1664 -/
def evalPhase (o : Opts K) (e : Env K X) (s : St K X) : St K X :=
  if (s.iter : Int) ≠ o.maxIter ∨ o.evalResAtMaxIter = true then
    { s with
      res := e.res s.x
      cost := if o.needsObj then e.cost s.x else s.cost
      log := s.log ++ (if o.storeIterates then [.store s.iter s.x] else []) ++ [.evalRes s.x] }
  else s

/-- ocp_nlp_sqp_with_feasible_qp.c:1672-1681 and `log_multiplier_norms`, 1100-1114 (not guarded) -/
def statPhase (o : Opts K) (s : St K X) : St K X :=
  s.emit ((if s.iter < s.statM then
      [.stat s.iter 0, .stat s.iter 1, .stat s.iter 2, .stat s.iter 3] else []) ++
    (if o.logPi then [.stat s.iter 11] else []) ++ (if o.logLam then [.stat s.iter 12] else []))

/-- ocp_nlp_sqp_with_feasible_qp.c:1690-1728; `none` = `exit(1)` -/
def timePhase (o : Opts K) (e : Env K X) (s : St K X) : Option (St K X) :=
  if o.timeoutMax > 0 then
    if s.iter > 0 then
      match Sqp.updateEst o.heur s.est (e.toc s.iter - s.prevTot) with
      | none => none
      | some est' => some { s with timeTot := e.toc s.iter, est := est', prevTot := e.toc s.iter }
    else some { s with timeTot := e.toc s.iter, prevTot := e.toc s.iter }
  else some s

/-- ocp_nlp_sqp_with_feasible_qp.c:1770-1779 -/
def normPhase (o : Opts K) (e : Env K X) (s : St K X) : St K X :=
  { s with
    stepNorm := if o.tolMinStep > (0 : Dbl) ∨ o.logPrimalStep = true
      then e.stepNorm s.iter s.x else s.stepNorm
    log := s.log ++ (if o.logPrimalStep then [.logPrimal s.iter] else []) ++
      (if o.logDualStep = true ∧ o.withAnderson = false then [.logDual s.iter] else []) }

/-- ocp_nlp_sqp_with_feasible_qp.c:1794-1797: globalization -/
def globPhase (e : Env K X) (s : St K X) : St K X :=
  { s with
    x := e.globX s.iter s.x
    cost := e.globCost s.iter s.x s.cost
    log := s.log ++ [.glob (e.glob s.iter s.x)] }

inductive Body (K X : Type*) where
  | abort
  | ret (st : St K X)
  | next (st : St K X)

/-- ocp_nlp_sqp_with_feasible_qp.c:1757-1816: the step size is written without a guard -/
def bodyQp (o : Opts K) (e : Env K X) (s : St K X) : Body K X :=
  let r := searchDir o e s
  if r.1 ≠ .success then .ret r.2
  else if e.glob s.iter s.x ≠ .success then
    .ret { globPhase e (normPhase o e r.2) with status := e.glob s.iter s.x }
  else .next { (globPhase e (normPhase o e r.2)).emit [.stat (s.iter + 1) 10] with
    iter := s.iter + 1 }

/-- the loop body, ocp_nlp_sqp_with_feasible_qp.c:1624-1818 -/
def body (o : Opts K) (e : Env K X) (s : St K X) : Body K X :=
  match timePhase o e (statPhase o (evalPhase o e s)) with
  | none => .abort
  | some s1 =>
    match checkTermination o s1 with
    | some st => .ret { s1 with status := st }
    | none => bodyQp o e s1

/-- outcome of a call: `exit(1)`, return of `nlp_mem->status`, or out of fuel -/
inductive Out (K X : Type*) where
  | abort
  | ret (st : St K X)
  | running

/-- the `for` loop, ocp_nlp_sqp_with_feasible_qp.c:1624 -/
def loop (o : Opts K) (e : Env K X) : Nat → St K X → Out K X
  | 0, _ => .running
  | n + 1, s =>
    if (s.iter : Int) ≤ o.maxIter then
      match body o e s with
      | .abort => .abort
      | .ret s' => .ret s'
      | .next s' => loop o e n s'
    else .ret s

/-- what survives a call -/
structure Persist (K : Type*) where
  statM : Nat
  warmStart : Int
  est : K
  res : Res
  cost : Dbl
  timeTot : K
  regPtr : Target

/-- state before the loop, ocp_nlp_sqp_with_feasible_qp.c:1580-1617 -/
def start (o : Opts K) (p : Persist K) (x : X) : St K X :=
  { statM := p.statM, warmStart := p.warmStart, iter := 0, x := x, res := p.res, cost := p.cost
    stepNorm := (0 : Dbl)
    est := if o.heur ≠ .maxOverall then 0 else p.est
    prevTot := 0, timeTot := 0, status := .ready, mode := o.mode, counter := 0, qps := 0
    regPtr := p.regPtr, log := [] }

/-- `ocp_nlp_sqp_wfqp`, ocp_nlp_sqp_with_feasible_qp.c:1552-1818, with enough fuel
(`C59_terminates`) -/
def solve (o : Opts K) (e : Env K X) (p : Persist K) (x : X) : Out K X :=
  loop o e ((o.maxIter + 1).toNat + 1) (start o p x)

/-- creation: `stat_m = max_iter + 1`, ocp_nlp_sqp_with_feasible_qp.c:271-273, and pointers of the
regularisation module, ocp_nlp_common.c:3568 -/
def create (maxIter : Nat) (ws : Int) : Persist K :=
  { statM := maxIter + 1, warmStart := ws, est := 0, res := ⟨0, 0, 0, 0⟩, cost := 0, timeTot := 0
    regPtr := .nominal }

/-- `stat_n` -/
def statN : Nat := 13

end Acados.WfqpLoop
