import Verif.Model.Num
/-!
# The SQP loop (`acados/ocp_nlp/ocp_nlp_sqp.c`)

The numerical work of an iteration (linearisation, QP solution, globalization) and the clock are
oracles (`Env`); the model is the control logic around them: which status is returned, how often
the QP solver is called and with which warm-start level, what is recorded where, and how the
duration of the next iteration is predicted.  Everything observable is appended to an event log.

Residuals, cost, step norm and tolerances are `Dbl` (NaN and infinities included), times are exact
numbers of an ordered field `K`.
-/
namespace Acados.Sqp

/-- the four residual norms of `ocp_nlp_res` -/
structure Res where
  stat : Dbl
  eq : Dbl
  ineq : Dbl
  comp : Dbl

/-- `ocp_nlp_timeout_heuristic_t`, acados/utils/types.h:111-118; `other` is any other integer: the
setter (ocp_nlp_sqp.c:155-159) does not check the value. -/
inductive Heur where
  | maxCall | maxOverall | last | average | zero | other
  deriving DecidableEq, Repr

/-- the options read by the loop (`ocp_nlp_sqp_opts` and `ocp_nlp_opts`) -/
structure Opts (K : Type*) where
  maxIter : Int
  evalResAtMaxIter : Bool
  tolStat : Dbl
  tolEq : Dbl
  tolIneq : Dbl
  tolComp : Dbl
  tolMinStep : Dbl
  tolUnbounded : Dbl
  timeoutMax : K
  heur : Heur
  warmStartFirst : Bool
  /-- `nlp_opts->qp_warm_start` -/
  qpWarmStart : Int
  storeIterates : Bool
  logPrimalStep : Bool
  logDualStep : Bool
  withAnderson : Bool
  /-- `print_level > 0` -/
  printing : Bool
  /-- `with_adaptive_levenberg_marquardt || globalization->needs_objective_value()` -/
  needsObj : Bool
  extQpRes : Bool

/-- What the rest of the library and the outside world do during one call.  `X` is the primal-dual
iterate.  The oracles may depend on the iteration number. -/
structure Env (K X : Type*) where
  /-- `ocp_nlp_res_compute` -/
  res : X → Res
  /-- `ocp_nlp_get_cost_value_from_submodules` -/
  cost : X → Dbl
  /-- `acados_toc(&timer0)` at ocp_nlp_sqp.c:609 of iteration `k` -/
  toc : Nat → K
  /-- status of `ocp_nlp_solve_qp_and_correct_dual` -/
  qp : Nat → X → Status
  /-- `ocp_qp_out_compute_primal_nrm_inf` of the QP solution -/
  stepNorm : Nat → X → Dbl
  /-- status of `find_acceptable_iterate`, the iterate it leaves behind, and `cost_value` after it -/
  glob : Nat → X → Status
  globX : Nat → X → X
  globCost : Nat → X → Dbl → Dbl

/-- observable actions of one call -/
inductive Ev (K X : Type*) where
  /-- `iterates[i] := x` (ocp_nlp_sqp.c:551) -/
  | store (i : Nat) (x : X)
  /-- the residuals of `x` were computed (568) -/
  | evalRes (x : X)
  /-- a write of `stat[stat_n*row+col]` -/
  | stat (row col : Nat)
  /-- `time_tot` was measured (609) -/
  | clock (t : K)
  /-- QP solver called, with this value of its option `warm_start` (685) -/
  | qp (warmStart : Int)
  /-- write to `primal_step_norm[i]` / `dual_step_norm[i]` (766, 770) -/
  | logPrimal (i : Nat)
  | logDual (i : Nat)
  /-- globalization finished with this status (778) -/
  | glob (s : Status)

/-- memory that survives a call, `ocp_nlp_sqp_memory` and `ocp_nlp_memory` (only what the loop
uses), and `warmStart`, the option value stored inside the QP solver -/
structure Mem where
  statM : Nat
  statN : Nat
  warmStart : Int

/-- state of the loop -/
structure St (K X : Type*) where
  mem : Mem
  iter : Nat
  x : X
  res : Res
  cost : Dbl
  stepNorm : Dbl
  /-- `mem->timeout_estimated_per_iteration_time` -/
  est : K
  /-- `timeout_previous_time_tot` -/
  prevTot : K
  /-- `nlp_timings->time_tot` -/
  timeTot : K
  log : List (Ev K X)

/-- `exit(1)`, `return status`, or `still running` (fuel used up) -/
inductive Out (K X : Type*) where
  | abort
  | ret (s : Status) (st : St K X)
  | running

variable {K X : Type*} [Field K] [LinearOrder K] [IsStrictOrderedRing K]

/-- `check_termination`, ocp_nlp_sqp.c:351-443.  `none` = `false`, `some s` = `true` with status
`s`. -/
def checkTermination (o : Opts K) (n : Nat) (r : Res) (stepNorm cost : Dbl) (timeTot est : K) :
    Option Status :=
  if r.stat.isnan || r.eq.isnan || r.ineq.isnan || r.comp.isnan then some .nanDetected
  else if !o.evalResAtMaxIter && decide ((n : Int) ≥ o.maxIter) then some .maxIter
  else if decide (r.stat < o.tolStat) && decide (r.eq < o.tolEq) && decide (r.ineq < o.tolIneq) &&
      decide (r.comp < o.tolComp) then some .success
  else if decide (o.tolMinStep > (0 : Dbl)) && decide (n > 0) && decide (stepNorm < o.tolMinStep)
    then some .minStep
  else if cost ≤ o.tolUnbounded then some .unbounded
  else if (n : Int) ≥ o.maxIter then some .maxIter
  else if o.timeoutMax > 0 ∧ o.timeoutMax ≤ timeTot + est then some .timeout
  else none

/-- one `switch` of ocp_nlp_sqp.c:615-640; `none` = `exit(1)`.  The `iter == 0` case of AVERAGE
(625-628) cannot be reached because of the enclosing `iter > 0` (611). -/
def updateEst (h : Heur) (est d : K) : Option K :=
  match h with
  | .last => some d
  | .maxCall | .maxOverall => some (if d > est then d else est)
  | .average => some (1 / 2 * d + 1 / 2 * est)
  | .zero => some est
  | .other => none

/-- ocp_nlp_sqp.c:546-570: store the iterate, linearise, evaluate cost and residuals -/
def evalPhase (o : Opts K) (e : Env K X) (s : St K X) : St K X :=
  if (s.iter : Int) ≠ o.maxIter ∨ o.evalResAtMaxIter = true then
    { s with
      res := e.res s.x
      cost := if o.needsObj then e.cost s.x else s.cost
      log := s.log ++ (if o.storeIterates then [.store s.iter s.x] else []) ++ [.evalRes s.x] }
  else s

/-- ocp_nlp_sqp.c:579-585: columns 0-3 of the statistics -/
def statPhase (s : St K X) : St K X :=
  if s.iter < s.mem.statM then
    { s with log := s.log ++ [.stat s.iter 0, .stat s.iter 1, .stat s.iter 2, .stat s.iter 3] }
  else s

/-- ocp_nlp_sqp.c:607-644: time measurement and prediction; `none` = `exit(1)` -/
def timePhase (o : Opts K) (e : Env K X) (s : St K X) : Option (St K X) :=
  if o.timeoutMax > 0 then
    if s.iter > 0 then
      match updateEst o.heur s.est (e.toc s.iter - s.prevTot) with
      | none => none
      | some est' => some { s with
          timeTot := e.toc s.iter, est := est', prevTot := e.toc s.iter
          log := s.log ++ [.clock (e.toc s.iter)] }
    else some { s with
          timeTot := e.toc s.iter, prevTot := e.toc s.iter
          log := s.log ++ [.clock (e.toc s.iter)] }
  else some s

/-- warm start level while the QP of the current iteration is solved, ocp_nlp_sqp.c:660-668 -/
def qpLevel (o : Opts K) (s : St K X) : Int :=
  if s.iter = 0 ∧ o.warmStartFirst = false then 0 else s.mem.warmStart

/-- ocp_nlp_sqp.c:660-717: QP solution, warm start restored, QP columns of the statistics -/
def qpPhase (o : Opts K) (s : St K X) : St K X :=
  { s with
    mem := { s.mem with
      warmStart := if s.iter = 0 then o.qpWarmStart else s.mem.warmStart }
    log := s.log ++ [.qp (qpLevel o s)] ++
      (if s.iter + 1 < s.mem.statM then [.stat (s.iter + 1) 4, .stat (s.iter + 1) 5] else []) ++
      (if o.extQpRes = true ∧ s.iter + 1 < s.mem.statM then
        [.stat (s.iter + 1) 7, .stat (s.iter + 1) 8, .stat (s.iter + 1) 9, .stat (s.iter + 1) 10]
       else []) }

/-- ocp_nlp_sqp.c:762-771: step norms -/
def normPhase (o : Opts K) (e : Env K X) (s : St K X) : St K X :=
  { s with
    stepNorm :=
      if o.tolMinStep > (0 : Dbl) ∨ o.logPrimalStep = true ∨ o.printing = true
      then e.stepNorm s.iter s.x else s.stepNorm
    log := s.log ++ (if o.logPrimalStep then [.logPrimal s.iter] else []) ++
      (if o.logDualStep = true ∧ o.withAnderson = false then [.logDual s.iter] else []) }

/-- ocp_nlp_sqp.c:778: globalization -/
def globPhase (e : Env K X) (s : St K X) : St K X :=
  { s with
    x := e.globX s.iter s.x
    cost := e.globCost s.iter s.x s.cost
    log := s.log ++ [.glob (e.glob s.iter s.x)] }

/-- ocp_nlp_sqp.c:795-796: step size column -/
def alphaPhase (s : St K X) : St K X :=
  { s with log := s.log ++ (if s.iter + 1 < s.mem.statM then [.stat (s.iter + 1) 6] else []) }

/-- result of one pass through the loop body -/
inductive Body (K X : Type*) where
  | abort
  | ret (s : Status) (st : St K X)
  | next (st : St K X)

/-- second half of the loop body, ocp_nlp_sqp.c:658-798 -/
def bodyQp (o : Opts K) (e : Env K X) (s : St K X) : Body K X :=
  if e.qp s.iter s.x ≠ .success ∧ e.qp s.iter s.x ≠ .maxIter then
    .ret .qpFailure { qpPhase o s with iter := s.iter + 1 }
  else if e.glob s.iter s.x ≠ .success then
    .ret (e.glob s.iter s.x) (globPhase e (normPhase o e (qpPhase o s)))
  else .next { alphaPhase (globPhase e (normPhase o e (qpPhase o s))) with iter := s.iter + 1 }

/-- the loop body, ocp_nlp_sqp.c:541-798 (with the `iter++` of the `for`) -/
def body (o : Opts K) (e : Env K X) (s : St K X) : Body K X :=
  match timePhase o e (statPhase (evalPhase o e s)) with
  | none => .abort
  | some s1 =>
    match checkTermination o s1.iter s1.res s1.stepNorm s1.cost s1.timeTot s1.est with
    | some st => .ret st s1
    | none => bodyQp o e s1

/-- the `for` loop, ocp_nlp_sqp.c:541 -/
def loop (o : Opts K) (e : Env K X) : Nat → St K X → Out K X
  | 0, _ => .running
  | n + 1, s =>
    if (s.iter : Int) ≤ o.maxIter then
      match body o e s with
      | .abort => .abort
      | .ret st s' => .ret st s'
      | .next s' => loop o e n s'
    else .ret .success s

/-- persistent part handed from call to call -/
structure Persist (K : Type*) where
  mem : Mem
  est : K
  res : Res
  cost : Dbl
  timeTot : K

/-- state before the loop, ocp_nlp_sqp.c:497-540 -/
def start (o : Opts K) (p : Persist K) (x : X) : St K X :=
  { mem := p.mem, iter := 0, x := x, res := p.res, cost := p.cost, stepNorm := (0 : Dbl)
    est := if o.heur ≠ .maxOverall then 0 else p.est
    prevTot := 0, timeTot := 0, log := [] }

/-- `ocp_nlp_sqp`, ocp_nlp_sqp.c:474-809, with fuel for the `for` loop -/
def solveFuel (o : Opts K) (e : Env K X) (p : Persist K) (x : X) (fuel : Nat) : Out K X :=
  loop o e fuel (start o p x)

/-- `ocp_nlp_sqp`, with enough fuel (see `C16_terminates`) -/
def solve (o : Opts K) (e : Env K X) (p : Persist K) (x : X) : Out K X :=
  solveFuel o e p x ((o.maxIter + 1).toNat + 1)

/-! ## Options -/

/-- `ocp_nlp_opts_set` for the field `qp_warm_start`, ocp_nlp_common.c:1349-1362: writes the QP
solver's own option and the copy kept by the NLP solver -/
def setQpWarmStart (o : Opts K) (p : Persist K) (v : Int) : Opts K × Persist K :=
  ({ o with qpWarmStart := v }, { p with mem := { p.mem with warmStart := v } })

/-- what survives a call -/
def St.persist (s : St K X) : Persist K :=
  { mem := s.mem, est := s.est, res := s.res, cost := s.cost, timeTot := s.timeTot }

/-! ## Statistics getter -/

/-- number of rows, ocp_nlp_sqp.c:972 -/
def statRows (statM iter : Nat) : Nat := if statM < iter + 1 then statM else iter + 1

/-- all writes `value[idx] := v` of the getter `statistics`, ocp_nlp_sqp.c:970-980, in order;
`stat` is the table `mem->stat` -/
def statGetter {D : Type*} (ofNat : Nat → D) (statM statN iter : Nat) (stat : Nat → D) :
    List (Nat × D) :=
  (List.range (statRows statM iter)).flatMap fun ii =>
    (ii + 0, ofNat ii) ::
      (List.range statN).map fun jj =>
        (ii + (jj + 1) * statRows statM iter, stat (jj + ii * statN))

/-- the caller's array after the writes -/
def applyWrites {D : Type*} (ws : List (Nat × D)) (a : Nat → D) : Nat → D :=
  ws.foldl (fun a w => Function.update a w.1 w.2) a

/-- creation: `ocp_nlp_sqp_memory_assign`, ocp_nlp_sqp.c:266-270 -/
def createMem (maxIter : Nat) (extQpRes : Bool) (ws : Int) : Mem :=
  { statM := maxIter + 1, statN := if extQpRes then 11 else 7, warmStart := ws }

end Acados.Sqp
