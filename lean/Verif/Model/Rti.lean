import Verif.Model.Num
/-!
# Real-time iteration solver (`ocp_nlp_sqp_rti.c`)

The control logic of the preparation, feedback and advanced-step preparation functions is modelled
statement by statement.  The numerical work (linearisation, regularisation, condensing, the inner QP
solver, the globalisation) is an arbitrary record of functions `Env`; what each function may read and
write is fixed by its type and cited there.

* `P` problem data except the bounds, `B` the bounds (`nlp_in`), `Z` an iterate (`nlp_out`)
* `M` QP matrices, function values kept in the modules and regularisation memory
* `V` the QP vectors (`rqz`, `b`, `d`), `C` the condensed matrices, `X` condensed solution and inner
  solver memory, `O` the QP solution (`qp_out`)
-/
namespace Acados.Rti

/-- `rti_phase_t`, ocp_nlp_sqp_rti.h:54-59 -/
inductive Phase where
  | both | prep | feed
  deriving DecidableEq, Repr

/-- `as_rti_level_t`, ocp_nlp_sqp_rti.h:68-75 -/
inductive Level where
  | A | B | C | D | standard
  deriving DecidableEq, Repr

/-- options read by the solver, ocp_nlp_sqp_rti.h:77-88 and the fields of `ocp_nlp_opts` used in
ocp_nlp_sqp_rti.c (`ext_qp_res`, `warm_start_first_qp`, `warm_start_first_qp_from_nlp`,
`qp_warm_start`); `as_rti_advancement_strategy` is part of `Env.adv` -/
structure Opts where
  phase : Phase
  level : Level
  asIter : Int
  logRes : Bool
  logOnly : Bool
  extRes : Bool
  warmFirst : Bool
  fromNlp : Bool
  qpWarm : Int

/-- the numerical routines called by the solver -/
structure Env (P B Z M V C X O : Type*) where
  /-- `ocp_nlp_initialize_submodules`, ocp_nlp_common.c:2916-2944 -/
  init : P → Z → M → M
  /-- `ocp_nlp_approximate_qp_matrices` (ocp_nlp_common.c:3013-3097) followed by
  `ocp_nlp_add_levenberg_marquardt_term` with `alpha = 1`, `iter = 0` (2972-2998).  It does not read the
  bounds: constraint modules store `constr_eval_no_bounds` (ocp_nlp_constraints_bgh.c:1275-1480). -/
  lin : P → Z → M → M
  /-- `ocp_nlp_approximate_qp_vectors_sqp`, ocp_nlp_common.c:3101-3139: `rqz`, `b` from memory, `d` from
  the stored function values, the slacks of the current iterate and the current bounds -/
  vec : B → Z → M → V
  /-- `regularize`, `regularize_lhs`, `regularize_rhs` of the selected regularisation module -/
  reg : M → V → M × V
  regLhs : M → V → M × V
  regRhs : M → V → M × V
  /-- left hand side condensing (`xcond->condense_lhs`, and the same part of `xcond->condensing`) -/
  cond : M → C
  /-- `xcond->condense_qp_out`, ocp_qp_xcond_solver.c:548 -/
  condOut : M → V → C → O → X → X
  /-- right hand side condensing and the inner solver; first argument: `warm_start` -/
  inner : Int → C → M → V → X → Status × Int × X
  /-- `xcond->expansion` -/
  expand : M → V → X → O
  /-- `correct_dual_sol` of the regularisation module -/
  corr : M → V → O → M × V × O
  /-- `ocp_nlp_initialize_qp_from_nlp`, ocp_nlp_common.c:3353-3373 -/
  initQp : Z → M → V → O → O
  /-- `find_acceptable_iterate`: success flag, iterate, `tmp_nlp_out`, memory, vectors, QP solution -/
  glob : Int → P → B → Z → Z → M → V → O → Bool × Z × Z × M × V × O
  /-- `prepare_full_residual_computation`, ocp_nlp_sqp_rti.c:396-451 (calls the constraint module's
  `update_qp_matrices`, so it also changes QP matrices) -/
  resPrep : P → Z → M → M
  /-- `level_c_prepare_residual_computation`, ocp_nlp_sqp_rti.c:742-795 -/
  resPrepC : P → Z → M → M
  /-- `ocp_nlp_zero_order_qp_update`, ocp_nlp_common.c:3142-3190 -/
  zero : P → B → Z → M → V → O → M × V
  /-- `ocp_nlp_level_c_update`, ocp_nlp_common.c:3194-3265 -/
  levC : P → B → Z → M → V → M × V
  /-- `as_rti_advance_problem`, ocp_nlp_sqp_rti.c:710-738 -/
  adv : P → Z → M → B → B × M
  /-- `as_rti_sanity_checks` does not exit, ocp_nlp_sqp_rti.c:669-708 -/
  sane : Level → Bool

/-- solver memory and the data the user can change between calls.  `writes` is a ghost list of the
offsets written in the array `stat` (of length `statN * statM`); `qps`, `qpSt`, `globOk` are ghost lists
of the QPs solved, of the solver statuses returned for them and of the globalisation outcomes -/
structure St (P B Z M V C X O : Type*) where
  p : P
  b : B
  z : Z
  tmp : Z
  m : M
  v : V
  c : C
  x : X
  o : O
  initNext : Bool
  ws : Int
  iter : Int
  status : Status
  first : Bool
  statN : Int
  statM : Int
  writes : List Int
  qps : List (C × M × V)
  qpSt : List Status
  globOk : List Bool

variable {P B Z M V C X O : Type*}

/-- `ocp_nlp_sqp_rti_memory_assign`, ocp_nlp_sqp_rti.c:286-305; `iter` starts at zero because the memory
comes from `calloc` -/
def create (o : Opts) (p : P) (b : B) (z tmp : Z) (m : M) (v : V) (c : C) (x : X) (q : O) :
    St P B Z M V C X O :=
  { p, b, z, tmp, m, v, c, x, o := q, initNext := false, ws := o.qpWarm, iter := 0
    status := .ready, first := true
    statN := 2 + (if o.logRes then 4 else 0) + (if o.extRes then 4 else 0)
    statM := 2 + o.asIter, writes := [], qps := [], qpSt := [], globOk := [] }

/-- `ocp_nlp_solve_qp_and_correct_dual` (ocp_nlp_common.c:4381-4561) with `ocp_qp_xcond_solve`
(ocp_qp_xcond_solver.c:518-581) or, when `pre`, `ocp_qp_xcond_condense_rhs_and_solve` (621-669): only the
first evaluates the flag `initialize_next_xcond_qp_from_qp_out`.  QP scaling is off (the solver never
calls `ocp_nlp_qpscaling_scale_qp`). -/
def qpSolve (E : Env P B Z M V C X O) (pre : Bool) (s : St P B Z M V C X O) :
    Status × St P B Z M V C X O :=
  let c := if pre then s.c else E.cond s.m
  let x := if !pre && s.initNext then E.condOut s.m s.v c s.o s.x else s.x
  let r := E.inner s.ws c s.m s.v x
  let k := E.corr s.m s.v (E.expand s.m s.v r.2.2)
  (r.1, { s with
    c := c, x := r.2.2, m := k.1, v := k.2.1, o := k.2.2
    initNext := if pre then s.initNext else false
    qps := s.qps ++ [(c, s.m, s.v)]
    qpSt := s.qpSt ++ [r.1] })

/-- `rti_store_residuals_in_stats`, ocp_nlp_sqp_rti.c:375-392 -/
def storeRes (o : Opts) (s : St P B Z M V C X O) : St P B Z M V C X O :=
  if s.iter < s.statM then
    let off := s.statN * s.iter + 2 + (if o.extRes then 4 else 0)
    { s with writes := s.writes ++ [off, off + 1, off + 2, off + 3] }
  else s

/-- `mem->stat[stat_n*iter+0] = qp_status; mem->stat[stat_n*iter+1] = qp_iter`, e.g. 621-622 -/
def saveStat (s : St P B Z M V C X O) : St P B Z M V C X O :=
  { s with writes := s.writes ++ [s.statN * s.iter, s.statN * s.iter + 1] }

/-- `(qp_status==ACADOS_SUCCESS) | (qp_status==ACADOS_MAXITER)`, ocp_nlp_sqp_rti.c:624 -/
def qpOk (st : Status) : Bool := decide (st = .success ∨ st = .maxIter)

/-- the globalisation call, ocp_nlp_sqp_rti.c:643 -/
def globStep (E : Env P B Z M V C X O) (s : St P B Z M V C X O) : Bool × St P B Z M V C X O :=
  let g := E.glob s.iter s.p s.b s.z s.tmp s.m s.v s.o
  (g.1, { s with
    z := g.2.1, tmp := g.2.2.1, m := g.2.2.2.1, v := g.2.2.2.2.1, o := g.2.2.2.2.2
    globOk := s.globOk ++ [g.1] })

/-- linearise, ocp_nlp_sqp_rti.c:494-496 -/
def linStep (E : Env P B Z M V C X O) (s : St P B Z M V C X O) : St P B Z M V C X O :=
  { s with m := E.lin s.p s.z s.m }

/-- `regularize_lhs` and `condense_lhs`, ocp_nlp_sqp_rti.c:504-511 -/
def lhsStep (E : Env P B Z M V C X O) (s : St P B Z M V C X O) : St P B Z M V C X O :=
  let k := E.regLhs s.m s.v
  { s with m := k.1, v := k.2, c := E.cond k.1 }

/-- reset of the iteration counter and `ocp_nlp_initialize_submodules`, ocp_nlp_sqp_rti.c:472-490 -/
def startPrep (E : Env P B Z M V C X O) (s : St P B Z M V C X O) : St P B Z M V C X O :=
  { s with iter := 0, m := E.init s.p s.z s.m }

/-- `ocp_nlp_sqp_rti_preparation_step`, ocp_nlp_sqp_rti.c:461-520 -/
def prepare (E : Env P B Z M V C X O) (o : Opts) (s : St P B Z M V C X O) : St P B Z M V C X O :=
  let s1 := linStep E (startPrep E s)
  if o.phase = .prep then lhsStep E s1 else s1

/-- update of the QP vectors, ocp_nlp_sqp_rti.c:538 -/
def vecStep (E : Env P B Z M V C X O) (s : St P B Z M V C X O) : St P B Z M V C X O :=
  { s with v := E.vec s.b s.z s.m }

/-- a regularisation call -/
def regStep (f : M → V → M × V) (s : St P B Z M V C X O) : St P B Z M V C X O :=
  { s with m := (f s.m s.v).1, v := (f s.m s.v).2 }

/-- QP warm start on the first call, ocp_nlp_sqp_rti.c:576-590 -/
def warmStart (E : Env P B Z M V C X O) (o : Opts) (s : St P B Z M V C X O) : St P B Z M V C X O :=
  if s.first then
    if !o.warmFirst then { s with ws := 0 }
    else if o.fromNlp then { s with initNext := true, o := E.initQp s.z s.m s.v s.o }
    else s
  else s

/-- feedback step up to the QP solution, ocp_nlp_sqp_rti.c:536-599 -/
def feedbackQp (E : Env P B Z M V C X O) (o : Opts) (s : St P B Z M V C X O) :
    Status × St P B Z M V C X O :=
  let s1 := vecStep E s
  let s2 := if o.logRes then storeRes o s1 else s1
  let s3 := { s2 with iter := s2.iter + 1 }
  let s4 := match o.phase with
    | .feed => regStep E.regRhs s3
    | .both => regStep E.reg s3
    | .prep => s3
  qpSolve E (decide (o.phase ≠ .both)) (warmStart E o s4)

/-- statistics after the QP solution, ocp_nlp_sqp_rti.c:601-622: the default warm start is restored, the
external QP residuals go to row 1, the QP statistics to row `iter` (without a bound check) -/
def feedbackStat (o : Opts) (s : St P B Z M V C X O) : St P B Z M V C X O :=
  let s1 := if s.first then { s with ws := o.qpWarm } else s
  let s2 := if o.extRes then
      { s1 with writes := s1.writes ++ [s1.statN + 2, s1.statN + 3, s1.statN + 4, s1.statN + 5] }
    else s1
  saveStat s2

/-- `ocp_nlp_sqp_rti_feedback_step`, ocp_nlp_sqp_rti.c:523-661 -/
def feedback (E : Env P B Z M V C X O) (o : Opts) (s : St P B Z M V C X O) : St P B Z M V C X O :=
  let r := feedbackQp E o s
  let s1 := feedbackStat o r.2
  if !qpOk r.1 then { s1 with status := .qpFailure }
  else
    let g := globStep E s1
    let s2 := { g.2 with status := .success, first := false }
    if o.logRes && !o.logOnly then storeRes o { s2 with m := E.resPrep s2.p s2.z s2.m } else s2

/-- a run of inner iterations; `upd` prepares the QP, `post` acts after the QP solution.  The flag tells
that the function returned from inside the loop.  ocp_nlp_sqp_rti.c:903-966, 972-1041, 1046-1096;
`k = as_rti_iter - iter` passes remain. -/
def asLoop (E : Env P B Z M V C X O) (pre : Bool) (upd post : St P B Z M V C X O → St P B Z M V C X O) :
    Nat → St P B Z M V C X O → Bool × St P B Z M V C X O
  | 0, s => (false, s)
  | k + 1, s =>
    let r := qpSolve E pre (upd s)
    let s1 := post (saveStat r.2)
    if !qpOk r.1 then (true, { s1 with status := .qpFailure })
    else
      let g := globStep E s1
      if !g.1 then (true, g.2)
      else asLoop E pre upd post k { g.2 with iter := g.2.iter + 1 }

/-- QP update of a level B iteration, ocp_nlp_sqp_rti.c:906-923 -/
def updB (E : Env P B Z M V C X O) (o : Opts) (s : St P B Z M V C X O) : St P B Z M V C X O :=
  let k := E.zero s.p s.b s.z s.m s.v s.o
  let s1 := { s with m := k.1, v := k.2 }
  let s2 := if o.logRes && !o.logOnly then storeRes o { s1 with m := E.resPrep s1.p s1.z s1.m } else s1
  regStep E.regRhs s2

/-- the second `correct_dual_sol` of level B, ocp_nlp_sqp_rti.c:937-938 -/
def postB (E : Env P B Z M V C X O) (s : St P B Z M V C X O) : St P B Z M V C X O :=
  let k := E.corr s.m s.v s.o
  { s with m := k.1, v := k.2.1, o := k.2.2 }

/-- QP update of a level C iteration, ocp_nlp_sqp_rti.c:976-993 -/
def updC (E : Env P B Z M V C X O) (o : Opts) (s : St P B Z M V C X O) : St P B Z M V C X O :=
  let k := E.levC s.p s.b s.z s.m s.v
  let s1 := { s with m := k.1, v := k.2 }
  let s2 := if o.logRes && !o.logOnly then storeRes o { s1 with m := E.resPrepC s1.p s1.z s1.m } else s1
  regStep E.regRhs s2

/-- QP update of a level D iteration, ocp_nlp_sqp_rti.c:1049-1066 -/
def updD (E : Env P B Z M V C X O) (o : Opts) (s : St P B Z M V C X O) : St P B Z M V C X O :=
  let s1 := vecStep E (linStep E s)
  let s2 := if o.logRes then storeRes o s1 else s1
  regStep E.reg s2

/-- level A, ocp_nlp_sqp_rti.c:842-898: the stored iterate is loaded and one QP is solved; the QP status
is not examined -/
def levelA (E : Env P B Z M V C X O) (o : Opts) (s : St P B Z M V C X O) :
    Bool × St P B Z M V C X O :=
  let s1 := { s with z := s.tmp }
  let s2 := if o.logRes && !o.logOnly then { s1 with m := E.resPrep s1.p s1.z s1.m } else s1
  let s3 := vecStep E s2
  let s4 := if o.logRes then storeRes o s3 else s3
  let s5 := regStep E.regRhs { s4 with iter := s4.iter + 1 }
  let g := globStep E (saveStat (qpSolve E true s5).2)
  (!g.1, g.2)

/-- the iterations before the preparation, ocp_nlp_sqp_rti.c:841-1097 -/
def inner (E : Env P B Z M V C X O) (o : Opts) (s : St P B Z M V C X O) : Bool × St P B Z M V C X O :=
  let n := (o.asIter - s.iter).toNat
  match o.level with
  | .A => if s.first then (false, s) else levelA E o s
  | .B => if s.first then (false, s) else asLoop E true (updB E o) (postB E) n s
  | .C => if s.first then (false, s) else asLoop E true (updC E o) id n s
  | .D => asLoop E false (updD E o) id n s
  | .standard => (false, s)

/-- `ocp_nlp_sqp_rti_preparation_advanced_step`, ocp_nlp_sqp_rti.c:797-1132; `none`: a sanity check
exits the program -/
def prepareAdvanced (E : Env P B Z M V C X O) (o : Opts) (s : St P B Z M V C X O) :
    Option (St P B Z M V C X O) :=
  let s1 := startPrep E s
  if s1.first && !E.sane o.level then none
  else
    let s2 := if s1.first then s1 else
      let a := E.adv s1.p s1.z s1.m s1.b
      { s1 with b := a.1, m := a.2 }
    let r := inner E o s2
    if r.1 then some r.2
    else
      let s3 := lhsStep E (linStep E r.2)
      some (if o.level = .A then { s3 with tmp := s3.z } else s3)

/-- `ocp_nlp_sqp_rti`, ocp_nlp_sqp_rti.c:1146-1198.  The return value is `status`. -/
def call (E : Env P B Z M V C X O) (o : Opts) (s : St P B Z M V C X O) : Option (St P B Z M V C X O) :=
  match o.phase with
  | .feed => some (feedback E o s)
  | .prep => if o.level = .standard then some (prepare E o s) else prepareAdvanced E o s
  | .both => if o.level ≠ .standard then none else some (feedback E o (prepare E o s))

/-- what a user does between and with solver calls: change the bounds (in particular the initial state),
change other problem data, run a phase -/
inductive Op (P B : Type*) where
  | setBounds (b : B)
  | setParam (p : P)
  | run (ph : Phase)

/-- one user action; `rti_phase` is set before each call, all other options stay as given -/
def step (E : Env P B Z M V C X O) (o : Opts) (s : St P B Z M V C X O) :
    Op P B → Option (St P B Z M V C X O)
  | .setBounds b => some { s with b := b }
  | .setParam p => some { s with p := p }
  | .run ph => call E { o with phase := ph } s

/-- a history of user actions -/
def run (E : Env P B Z M V C X O) (o : Opts) : List (Op P B) → St P B Z M V C X O →
    Option (St P B Z M V C X O)
  | [], s => some s
  | a :: l, s => (step E o s a).bind (run E o l)

end Acados.Rti
