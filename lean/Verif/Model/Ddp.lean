import Verif.Model.Merit
import Verif.Model.SqpLoop
import Mathlib.Algebra.BigOperators.Group.Finset.Basic
/-!
# The DDP solver (`acados/ocp_nlp/ocp_nlp_ddp.c`)

Exact arithmetic in an ordered field `K` for trajectories, gains, multipliers and costs; residual
norms, step norms and tolerances are `Dbl` (NaN included).  Vectors are functions of the index,
stage vectors `ux` store the inputs first, then the states, then the slacks, as in the code.  The
linearisation, the residuals and the QP solver (with its feedback gains) are oracles.  Printing,
timing, thread counts and warm starts are not modelled.
-/
namespace Acados.Ddp
open Finset

/-- `ocp_nlp_dims`: `ns` slack pairs, so `nv = nu + nx + 2 ns` -/
structure Dims where
  N : Nat
  nx : Nat → Nat
  nu : Nat → Nat
  ns : Nat → Nat
  ni : Nat → Nat
  nz : Nat → Nat

/-- number of primal variables of a stage, `dims->nv` -/
def Dims.nv (d : Dims) (i : Nat) : Nat := d.nu i + d.nx i + 2 * d.ns i

/-- `ocp_nlp_out` (also used for `nlp_work->tmp_nlp_out`) -/
structure Out (K : Type*) where
  ux : Nat → Nat → K
  z : Nat → Nat → K
  lam : Nat → Nat → K
  pi : Nat → Nat → K

/-- What one QP solution provides: `qp_out` (`ux`, `lam`, `pi`), the Riccati gains returned by
`solver_get` for the fields "K" and "k" (ocp_nlp_ddp.c:372, 376), and `mem->z_alg`, `mem->dzduxt` of
the linearisation. -/
structure Step (K : Type*) where
  ux : Nat → Nat → K
  lam : Nat → Nat → K
  pi : Nat → Nat → K
  gainK : Nat → Nat → Nat → K
  gaink : Nat → Nat → K
  zAlg : Nat → Nat → K
  dzduxt : Nat → Nat → Nat → K

variable {K : Type*} [Field K] [LinearOrder K] [IsStrictOrderedRing K]

/-- write `n` entries starting at `off` -/
def blit (off n : Nat) (src : Nat → K) (dst : Nat → K) : Nat → K :=
  fun j => if off ≤ j ∧ j < off + n then src (j - off) else dst j

/-- replace the vector of stage `i` -/
def setAt (i : Nat) (v : Nat → K) (a : Nat → Nat → K) : Nat → Nat → K :=
  fun k => if k = i then v else a k

/-- the entries the integrator receives (`blasfeo_unpack_dvec(n, v, off, ..)`,
ocp_nlp_dynamics_cont.c:949-950); entries outside are 0 -/
def unpack (off n : Nat) (v : Nat → K) : Nat → K := fun j => if j < n then v (off + j) else 0

/-- Dynamics of all stages: stage, state, input, component of the next state. -/
abbrev Dyn (K : Type*) := Nat → (Nat → K) → (Nat → K) → Nat → K

/-- `ocp_nlp_dynamics_cont_compute_fun`, ocp_nlp_dynamics_cont.c:928-996: result of the integrator
minus the state of the next stage (`ux1`). -/
def dynFun (d : Dims) (f : Dyn K) (i : Nat) (ux ux1 : Nat → K) (j : Nat) : K :=
  f i (unpack (d.nu i) (d.nx i) ux) (unpack 0 (d.nu i) ux) j - ux1 (d.nu (i + 1) + j)

/-- The vectors read through `out->ux`: with `same` the caller passed `out_destination == out`, so
the reads see what was written before. -/
def src (same : Bool) (out dest : Nat → Nat → K) : Nat → Nat → K := if same then dest else out

/-- one pass of the forward sweep, ocp_nlp_ddp.c:366-399 -/
def sweepStep (d : Dims) (f : Dyn K) (s : Step K) (same : Bool) (alpha : K)
    (out dest : Nat → Nat → K) (i : Nat) : Nat → Nat → K :=
  let dx := fun l => dest i (d.nu i + l) - src same out dest i (d.nu i + l)
  let du := fun j => (∑ l ∈ range (d.nx i), s.gainK i j l * dx l) + alpha * s.gaink i j
  let dest1 := setAt i (blit 0 (d.nu i) (fun j => src same out dest i j + du j) (dest i)) dest
  let fn := dynFun d f i (dest1 i) (src same out dest1 (i + 1))
  setAt (i + 1) (blit (d.nu (i + 1)) (d.nx (i + 1))
    (fun j => fn j + src same out dest1 (i + 1) (d.nu (i + 1) + j)) (dest1 (i + 1))) dest1

/-- primal part of `ocp_nlp_ddp_compute_trial_iterate`, ocp_nlp_ddp.c:357-399 -/
def sweep (d : Dims) (f : Dyn K) (s : Step K) (same : Bool) (alpha : K)
    (out dest : Nat → Nat → K) : Nat → Nat → K :=
  (List.range d.N).foldl (sweepStep d f s same alpha out)
    (setAt 0 (blit (d.nu 0) (d.nx 0)
      (fun j => out 0 (d.nu 0 + j) + alpha * s.ux 0 (d.nu 0 + j)) (dest 0)) dest)

/-- multiplier update of one vector, ocp_nlp_ddp.c:404-424: a copy, or scaling of the content of
the destination followed by an axpy -/
def dualUpd (full : Bool) (alpha : K) (n : Nat) (qp dest : Nat → K) : Nat → K :=
  fun j => if j < n then (if full then qp j else (1 - alpha) * dest j + alpha * qp j) else dest j

/-- `ocp_nlp_ddp_compute_trial_iterate`, ocp_nlp_ddp.c:334-431.  `full` is the value found at
`globalization_opts->full_step_dual`; the pointer is cast from the options struct of the
globalization module without following its member `globalization_opts` (354), so the value is not
the option of that name but whatever is stored at this offset.  It is an arbitrary input here; the
argument `full_step_dual` of the C function is ignored, as in the code. -/
def trialIter (d : Dims) (f : Dyn K) (s : Step K) (same full : Bool) (alpha : K)
    (out dest : Out K) : Out K :=
  { ux := sweep d f s same alpha out.ux dest.ux
    lam := fun i => if i < d.N + 1 then dualUpd full alpha (2 * d.ni i) (s.lam i) (dest.lam i)
      else dest.lam i
    pi := fun i => if i < d.N then dualUpd full alpha (d.nx (i + 1)) (s.pi i) (dest.pi i)
      else dest.pi i
    z := fun i j => if i < d.N ∧ j < d.nz i then
        s.zAlg i j + alpha * ∑ r ∈ range (d.nu i + d.nx i), s.dzduxt i r j * s.ux i r
      else dest.z i j }

/-- `copy_ocp_nlp_out`, ocp_nlp_common.c:3823-3843 -/
def copyOut (d : Dims) (src dst : Out K) : Out K :=
  { ux := fun i j => if i ≤ d.N ∧ j < d.nv i then src.ux i j else dst.ux i j
    z := fun i j => if i ≤ d.N ∧ j < d.nz i then src.z i j else dst.z i j
    lam := fun i j => if i ≤ d.N ∧ j < 2 * d.ni i then src.lam i j else dst.lam i j
    pi := fun i j => if i < d.N ∧ j < d.nx (i + 1) then src.pi i j else dst.pi i j }

/-! ## Main loop -/

/-- which globalization the solver was created with (ocp_nlp_interface.c:252-277); the funnel is
not modelled together with DDP -/
inductive Glob (K : Type*) where
  | fixedStep (stepLength : K)
  | merit (o : Merit.Opts K)

/-- options read by the loop.  `tolZeroRes` is a field of `ocp_nlp_ddp_opts` that no function of the
library ever assigns; it is an arbitrary number here. -/
structure Opts (K : Type*) where
  maxIter : Int
  evalResAtMaxIter : Bool
  tolStat : Dbl
  tolEq : Dbl
  tolZeroRes : K
  adaptiveLm : Bool
  fullDual : Bool
  glob : Glob K

/-- oracles -/
structure Env (K : Type*) where
  dyn : Dyn K
  /-- sum of the stage costs as a function of the primal trajectory -/
  cost : (Nat → Nat → K) → K
  res : Out K → Sqp.Res
  qpStatus : Nat → Out K → Status
  step : Nat → Out K → Step K
  /-- objective value of the QP at its solution -/
  qpCost : Nat → Out K → K
  stepNorm : Nat → Out K → Dbl

/-- state of the loop; `acc` is a ghost list of all iterates that were ever copied into `nlp_out`
(most recent first) -/
structure St (K : Type*) where
  iter : Nat
  x : Out K
  tmp : Out K
  infeasibleGuess : Bool
  alpha : K
  stepNorm : Dbl
  res : Sqp.Res
  cost : K
  acc : List (Out K)

/-- `check_termination`, ocp_nlp_ddp.c:436-507 -/
def checkTermination (o : Opts K) (n : Nat) (r : Sqp.Res) (stepNorm : Dbl) (cost : K) :
    Option Status :=
  if r.stat.isnan || r.eq.isnan || r.ineq.isnan then some .nanDetected
  else if r.eq < o.tolEq ∧ r.stat < o.tolStat then some .success
  else if r.eq < o.tolEq ∧ o.adaptiveLm = true ∧ cost < o.tolZeroRes then some .success
  else if n > 0 ∧ stepNorm < o.tolEq then some .minStep
  else if (n : Int) ≥ o.maxIter then some .maxIter
  else none

/-- `needs_objective_value` of the globalization or adaptive Levenberg-Marquardt,
ocp_nlp_ddp.c:627 -/
def needsObj (o : Opts K) : Bool :=
  o.adaptiveLm || (match o.glob with | .fixedStep _ => false | .merit _ => true)

/-- ocp_nlp_ddp.c:607-665: linearise, evaluate cost and residuals, look at the initial guess -/
def evalPhase (o : Opts K) (e : Env K) (s : St K) : St K :=
  let s1 : St K :=
    if (s.iter : Int) ≠ o.maxIter ∨ o.evalResAtMaxIter = true then
      { s with res := e.res s.x, cost := if needsObj o then e.cost s.x.ux else s.cost }
    else s
  { s1 with infeasibleGuess := s1.infeasibleGuess && decide (s1.res.eq > o.tolEq) }

/-- content of `tmp_nlp_out` before trial `j` of the line search -/
def tmpSeq (d : Dims) (f : Dyn K) (s : Step K) (full : Bool) (red : K) (out tmp : Out K) :
    Nat → Out K
  | 0 => tmp
  | j + 1 => trialIter d f s false full (red ^ j) out (tmpSeq d f s full red out tmp j)

/-- trial `j` of the line search with step size `a`: iterate and cost,
merit_backtracking.c:777-804 -/
def lsTrial (d : Dims) (e : Env K) (s : Step K) (full : Bool) (red : K) (out tmp : Out K)
    (j : Nat) (a : K) : Out K × K :=
  let t := trialIter d e.dyn s false full a out (tmpSeq d e.dyn s full red out tmp j)
  (t, e.cost t.ux)

/-- result of one pass through the loop body -/
inductive Body (K : Type*) where
  | ret (s : Status) (st : St K)
  | next (st : St K)
  | running

/-- ocp_nlp_ddp.c:779-813: the step.  A line search that fails leaves its last trial in
`tmp_nlp_out`; that content is not tracked (`tmp` keeps its old value), because the solver returns
at once and overwrites it at the next call before reading anything but multipliers and slacks. -/
def globPhase (d : Dims) (o : Opts K) (e : Env K) (fuel : Nat) (s : St K) : Body K :=
  let st := e.step s.iter s.x
  if s.infeasibleGuess then
    let t := trialIter d e.dyn st false o.fullDual 1 s.x s.tmp
    let x' := copyOut d t s.x
    .next { s with tmp := t, x := x', alpha := 1, infeasibleGuess := false
                   iter := s.iter + 1, acc := x' :: s.acc }
  else
    match o.glob with
    | .fixedStep len =>
      let x' := trialIter d e.dyn st true o.fullDual len s.x s.x
      .next { s with x := x', alpha := len, iter := s.iter + 1, acc := x' :: s.acc }
    | .merit mo =>
      match Merit.ddpFind mo (e.qpCost s.iter s.x) s.cost
          (lsTrial d e st o.fullDual mo.alphaReduction s.x s.tmp) s.x fuel with
      | none => .running
      | some (gst, a, c, t) =>
        if gst = .success then
          let x' := copyOut d t s.x
          .next { s with tmp := t, x := x', alpha := a, cost := c, iter := s.iter + 1
                         acc := x' :: s.acc }
        else .ret .qpFailure s

/-- the loop body, ocp_nlp_ddp.c:600-814 -/
def body (d : Dims) (o : Opts K) (e : Env K) (fuel : Nat) (s : St K) : Body K :=
  let s1 := evalPhase o e s
  match checkTermination o s1.iter s1.res s1.stepNorm s1.cost with
  | some st => .ret st s1
  | none =>
    if e.qpStatus s1.iter s1.x ≠ .success ∧ e.qpStatus s1.iter s1.x ≠ .maxIter then
      .ret .qpFailure { s1 with iter := s1.iter + 1 }
    else globPhase d o e fuel { s1 with stepNorm := e.stepNorm s1.iter s1.x }

/-- the `for` loop, ocp_nlp_ddp.c:600.  `old` is the status stored in memory before the call. -/
def loop (d : Dims) (o : Opts K) (e : Env K) (fuel : Nat) (old : Status) : Nat → St K → Body K
  | 0, _ => .running
  | n + 1, s =>
    if (s.iter : Int) ≤ o.maxIter then
      match body d o e fuel s with
      | .ret st s' => .ret st s'
      | .next s' => loop d o e fuel old n s'
      | .running => .running
    else .ret old s

/-- state before the loop, ocp_nlp_ddp.c:579-597 -/
def start (x tmp : Out K) (res : Sqp.Res) (cost : K) : St K :=
  { iter := 0, x := x, tmp := tmp, infeasibleGuess := true, alpha := 0, stepNorm := (0 : Dbl)
    res := res, cost := cost, acc := [] }

/-- `ocp_nlp_ddp`, ocp_nlp_ddp.c:546-820.  `fuel` bounds the line search; `x` is the initial guess,
`tmp`, `res`, `cost`, `old` what earlier calls left behind. -/
def solve (d : Dims) (o : Opts K) (e : Env K) (fuel : Nat) (x tmp : Out K) (res : Sqp.Res)
    (cost : K) (old : Status) : Body K :=
  loop d o e fuel old ((o.maxIter + 1).toNat + 1) (start x tmp res cost)

/-- the sanity checks of `ocp_nlp_ddp_precompute`, ocp_nlp_ddp.c:878-905: `true` = accepted,
`false` = `exit(1)` -/
def precomputeOk (d : Dims) (nbx0 : Nat) : Bool :=
  decide (nbx0 ≤ d.ni 0) && (List.range (d.N + 1)).all fun i => i == 0 || d.ni i == 0

end Acados.Ddp
