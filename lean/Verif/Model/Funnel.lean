import Verif.Model.Num
/-!
# Funnel globalization (`acados/ocp_nlp/ocp_nlp_globalization_funnel.c`)

`D` is the number type (an ordered field, or `Dbl`).  `X` is the type of iterates
(`ocp_nlp_out`), left abstract.  The evaluation of cost and infeasibility at a trial point
(calls of the user's functions and integrators) is an arbitrary oracle indexed by the trial
number, so it may even depend on hidden state.  Printing is omitted.
-/
namespace Acados.Funnel

variable {D : Type*} [Add D] [Sub D] [Mul D] [Div D] [Neg D] [LT D] [LE D]
  [DecidableLT D] [DecidableLE D] [NatCast D]

/-- decimal literals of the C source as quotients of naturals -/
def lit (n d : Nat) : D := (n : D) / (d : D)

/-- `ocp_nlp_globalization_funnel_opts` (funnel.h:56-71) together with the fields of
`ocp_nlp_globalization_opts` used here (globalization_common.h). `type_switching_condition` is
never read and is dropped. -/
structure Opts (D : Type*) where
  increaseFactor : D
  upperBound : D
  sufficientDecrease : D
  kappa : D
  fractionSwitching : D
  initialPenalty : D
  penaltyContraction : D
  penaltyEta : D
  meritOnly : Bool
  alphaMin : D
  alphaReduction : D
  epsSufficientDescent : D
  fullStepDual : Bool

/-- `ocp_nlp_globalization_funnel_opts_initialize_default` (funnel.c:73-95) with
`ocp_nlp_globalization_opts_initialize_default` (globalization_common.c:77-89). -/
def Opts.default : Opts D where
  increaseFactor := lit 15 1
  upperBound := lit 1 1
  sufficientDecrease := lit 9 10
  kappa := lit 9 10
  fractionSwitching := lit 1 1000
  initialPenalty := lit 1 1
  penaltyContraction := lit 1 2
  penaltyEta := lit 1 1000000
  meritOnly := false
  alphaMin := lit 1 20
  alphaReduction := lit 7 10
  epsSufficientDescent := lit 1 10000
  fullStepDual := false

/-- one call of `ocp_nlp_globalization_funnel_opts_set` -/
inductive OptSet (D : Type*) where
  | increaseFactor (v : D) | upperBound (v : D) | sufficientDecrease (v : D) | kappa (v : D)
  | fractionSwitching (v : D) | initialPenalty (v : D) | meritOnly (b : Bool)
  | alphaMin (v : D) | alphaReduction (v : D) | epsSufficientDescent (v : D)
  | fullStepDual (b : Bool)

/-- `ocp_nlp_globalization_funnel_opts_set` (funnel.c:98-173) and the fields it forwards to
`ocp_nlp_globalization_opts_set` (globalization_common.c:106-148); `none` is `exit(1)`.
Note that `alpha_min`, `alpha_reduction`, `eps_sufficient_descent` are not validated. -/
def Opts.set (o : Opts D) : OptSet D → Option (Opts D)
  | .increaseFactor v => if v ≤ lit 1 1 then none else some { o with increaseFactor := v }
  | .upperBound v => if v ≤ lit 0 1 then none else some { o with upperBound := v }
  | .sufficientDecrease v =>
    if v ≤ lit 0 1 ∨ v ≥ lit 1 1 then none else some { o with sufficientDecrease := v }
  | .kappa v => if v ≤ lit 0 1 ∨ v ≥ lit 1 1 then none else some { o with kappa := v }
  | .fractionSwitching v =>
    if v ≤ lit 0 1 ∨ v ≥ lit 1 1 then none else some { o with fractionSwitching := v }
  | .initialPenalty v =>
    if v < lit 0 1 ∨ v > lit 1 1 then none else some { o with initialPenalty := v }
  | .meritOnly b => some { o with meritOnly := b }
  | .alphaMin v => some { o with alphaMin := v }
  | .alphaReduction v => some { o with alphaReduction := v }
  | .epsSufficientDescent v => some { o with epsSufficientDescent := v }
  | .fullStepDual b => some { o with fullStepDual := b }

/-- any history of option writes; `none` once a write exits -/
def Opts.setAll (o : Opts D) : List (OptSet D) → Option (Opts D)
  | [] => some o
  | s :: t => match o.set s with
    | none => none
    | some o' => o'.setAll t

/-- `ocp_nlp_globalization_funnel_memory` (funnel.h:87-96) -/
structure Mem (D : Type*) where
  width : D
  iterType : Char
  penaltyMode : Bool
  l1 : D
  penalty : D
  alpha : D

/-- the solver-side scalars the funnel reads and writes: `nlp_mem->cost_value`,
`nlp_mem->objective_multiplier` -/
structure NlpMem (D : Type*) where
  costValue : D
  objMult : D

/-- `initialize_funnel_width`, funnel.c:229-233 -/
def initialWidth (o : Opts D) (infeas : D) : D := cmax o.upperBound (o.increaseFactor * infeas)

/-- `ocp_nlp_globalization_funnel_initialize_memory`, funnel.c:588-605.  Line 602 writes
`initial_penalty_parameter` and line 604 overwrites it; `funnel_penalty_mode` is not written. -/
def initializeMemory (o : Opts D) (m : Mem D) (n : NlpMem D) (infeas : D) : Mem D :=
  let m := { m with l1 := infeas, width := initialWidth o infeas, iterType := '-' }
  let m := { m with penalty := o.initialPenalty }
  let m := { m with alpha := lit 1 1 }
  { m with penalty := n.objMult }

/-- `update_funnel_penalty_parameter`, funnel.c:240-263 (value of `penalty_parameter` after). -/
def updatePenalty (o : Opts D) (p predObj predInf : D) : D :=
  let po := if predObj < lit 0 1 ∧ predObj > -(lit 1 10000) then lit 0 1 else predObj
  if p * po + predInf < o.penaltyEta * predInf then
    cmax (lit 0 1) (cmin (o.penaltyContraction * p)
      (((lit 1 1 - o.penaltyEta) * predInf) / (-po + lit 1 1000000000)))
  else p

/-- `decrease_funnel`, funnel.c:265-268 -/
def decreaseFunnel (o : Opts D) (width trialInf : D) : D :=
  (lit 1 1 - o.kappa) * trialInf + o.kappa * width

/-- `is_iterate_inside_of_funnel`, funnel.c:270-280 -/
def insideFunnel (width infeas : D) : Bool := decide (infeas ≤ width)
/-- `is_funnel_sufficient_decrease_satisfied`, funnel.c:282-292 -/
def sufficientDecreaseOk (o : Opts D) (width infeas : D) : Bool :=
  decide (infeas ≤ o.sufficientDecrease * width)
/-- `is_switching_condition_satisfied`, funnel.c:294-304 -/
def switchingOk (o : Opts D) (predObj alpha predInf : D) : Bool :=
  decide (alpha * predObj ≥ o.fractionSwitching * predInf)
/-- `is_armijo_condition_satisfied`, funnel.c:306-317 -/
def armijoOk (o : Opts D) (actual pred alpha : D) : Bool :=
  decide (actual ≥ o.epsSufficientDescent * alpha * cmax (lit 0 1) (pred - lit 1 1000000000))

/-- the scalars a line search call works with -/
structure Ctx (D : Type*) where
  predObj : D
  predInf : D
  curInf : D
  curCost : D
  curMerit : D
  /-- penalty parameter after the update -/
  penalty : D

/-- `is_trial_iterate_acceptable_to_funnel`, funnel.c:319-413.  Returns the accept flag and the
updated memory. -/
def acceptable (o : Opts D) (c : Ctx D) (m : Mem D) (alpha trialCost trialInf : D) :
    Bool × Mem D :=
  let trialMerit := c.penalty * trialCost + trialInf
  let predMerit := c.penalty * c.predObj + c.predInf
  let actualObj := c.curCost - trialCost
  let m := if o.meritOnly then { m with penaltyMode := true } else m
  if o.meritOnly || insideFunnel m.width trialInf then
    if !m.penaltyMode then
      if switchingOk o c.predObj alpha c.predInf then
        if armijoOk o actualObj c.predObj alpha then (true, { m with iterType := 'f' })
        else (false, m)
      else if sufficientDecreaseOk o m.width trialInf then
        (true, { m with iterType := 'h', width := decreaseFunnel o m.width trialInf })
      else if decide (trialInf < c.curInf) && armijoOk o (c.curMerit - trialMerit) predMerit alpha
      then (true, { m with iterType := 'b', penaltyMode := true })
      else (false, m)
    else if armijoOk o (c.curMerit - trialMerit) predMerit alpha then
      let m := { m with iterType := 'p' }
      if sufficientDecreaseOk o m.width trialInf then
        (true, { m with width := decreaseFunnel o m.width trialInf, penaltyMode := false })
      else (true, m)
    else (false, m)
  else (false, m)

/-- what one evaluation of a trial point returns: the trial iterate, its cost and infeasibility -/
structure Trial (X D : Type*) where
  x : X
  cost : D
  infeas : D

/-- result of `backtracking_line_search` -/
structure Result (X D : Type*) where
  status : Status
  mem : Mem D
  nlp : NlpMem D
  /-- content of `tmp_nlp_out` -/
  tmp : X
  /-- `*step_size`, written only on success -/
  step : Option D

/-- The `while (true)` loop of `backtracking_line_search`, funnel.c:449-532.  The C loop has no
bound, so the model takes fuel; `none` means "still running". -/
def lsLoop {X : Type*} (o : Opts D) (c : Ctx D) (trial : Nat → D → Trial X D) (n : NlpMem D) :
    Nat → Nat → D → Mem D → Option (Result X D)
  | 0, _, _, _ => none
  | fuel + 1, j, alpha, m =>
    let t := trial j alpha
    match acceptable o c m alpha t.cost t.infeas with
    | (true, m') =>
      some { status := .success
             mem := { m' with alpha := alpha, l1 := t.infeas }
             nlp := { n with costValue := t.cost }
             tmp := t.x
             step := some alpha }
    | (false, m') =>
      if alpha < o.alphaMin then
        some { status := .minStep, mem := m', nlp := n, tmp := t.x, step := none }
      else lsLoop o c trial n fuel (j + 1) (alpha * o.alphaReduction) m'

/-- scalars before the loop, funnel.c:433-445 -/
def startCtx (o : Opts D) (m : Mem D) (n : NlpMem D) (predObj predInf : D) : Ctx D :=
  let p := updatePenalty o n.objMult predObj predInf
  { predObj := predObj, predInf := predInf, curInf := m.l1, curCost := n.costValue,
    curMerit := p * n.costValue + m.l1, penalty := p }

/-- `backtracking_line_search`, funnel.c:415-533 -/
def lineSearch {X : Type*} (o : Opts D) (m : Mem D) (n : NlpMem D) (predObj predInf : D)
    (trial : Nat → D → Trial X D) (fuel : Nat) : Option (Result X D) :=
  let c := startCtx o m n predObj predInf
  lsLoop o c trial { n with objMult := c.penalty } fuel 0 (lit 1 1) { m with penalty := c.penalty }

/-- the solver state the user sees around one globalization call -/
structure St (X D : Type*) where
  x : X
  mem : Mem D
  nlp : NlpMem D

/-- `ocp_nlp_globalization_funnel_find_acceptable_iterate`, funnel.c:536-555: the trial iterate is
copied to `nlp_out` only on success. -/
def findAcceptable {X : Type*} (o : Opts D) (s : St X D) (predObj predInf : D)
    (trial : Nat → D → Trial X D) (fuel : Nat) : Option (Status × St X D) :=
  match lineSearch o s.mem s.nlp predObj predInf trial fuel with
  | none => none
  | some r => some (r.status,
      { x := if r.status = .success then r.tmp else s.x, mem := r.mem, nlp := r.nlp })

/-- One call of the globalization made by the SQP loop. -/
structure Call (X D : Type*) where
  predObj : D
  predInf : D
  trial : Nat → D → Trial X D

/-- The calls of one solve, in order; stops at the first call that does not succeed (SQP returns,
ocp_nlp_sqp.c:778-794) and returns the trajectory of states after each successful call. `none` if
some call does not finish within the fuel. -/
def runCalls {X : Type*} (o : Opts D) (fuel : Nat) : St X D → List (Call X D) → Option (List (St X D))
  | _, [] => some []
  | s, c :: t =>
    match findAcceptable o s c.predObj c.predInf c.trial fuel with
    | none => none
    | some (st, s') =>
      if st = .success then
        match runCalls o fuel s' t with
        | none => none
        | some l => some (s' :: l)
      else some []

end Acados.Funnel
