import Verif.Model.DenseQp
import Verif.Model.Num
/-!
# Calls of the external QP solvers: data handed over, status returned

`dense_qp_qpoases.c:541-795` (which routine of qpOASES is called with which data), option setter
`dense_qp_qpoases.c:136-203`, status conversion of `dense_qp_hpipm.c`, `ocp_qp_hpipm.c`, `dense_qp_daqp.c`.
The solvers are external: a solver is a function of all calls made so far.
-/
namespace Acados.QpCall
open Acados.DenseQp

/-- return values of qpOASES that the interface distinguishes (`MessageHandling.h`, external) -/
inductive Ret where
  | successful | maxNwsr | infeasible | unbounded
  | other (code : Nat)
  deriving DecidableEq

section
variable {K : Type*} [Field K] [LinearOrder K]

/-- one call of qpOASES, with the arrays handed over: `box` selects `QProblemB_*` (no general constraints),
`y0` is the guess of the dual solution, `chol` that the stored Cholesky factor is passed -/
inductive Call (K : Type*) where
  | init (box : Bool) (a : QArgs K)
  | initW (box : Bool) (a : QArgs K) (y0 : Option (Nat → K)) (chol : Bool)
  | hot (box : Bool) (g lb ub lbA ubA : Nat → K)

/-- answer of qpOASES: return value, primal and dual solution -/
structure Ans (K : Type*) where
  ret : Ret
  x : Nat → K
  y : Nat → K

/-- `dense_qp_qpoases_opts` (fields read by the solve routine) -/
structure Opts (K : Type*) where
  hotstart : Bool
  warm : Bool
  chol : Bool
  maxNwsr : Int
  tol : K

/-- `dense_qp_qpoases_memory`: `first_it`, `dual_sol`; `log` (ghost): the calls made so far -/
structure Mem (K : Type*) where
  first : Bool
  dual : Nat → K
  log : List (Call K)

/-- conversion of the return value, dense_qp_qpoases.c:786-792 -/
def statusOf : Ret → Status
  | .successful => .success
  | .maxNwsr => .maxIter
  | .infeasible => .infeasible
  | .unbounded => .unbounded
  | .other _ => .unknown

/-- the call chosen, dense_qp_qpoases.c:543-699, with the flag whether its return value is kept in
`qpoases_status` (it is not for `QProblemB_init` and `QProblemB_hotstart` in the hot-start branch, 593 and 600) -/
def choose (o : Opts K) (m : Mem K) (box : Bool) (a : QArgs K) : Call K × Bool :=
  if o.hotstart then
    if m.first then (.init box a, !box)
    else (.hot box a.g a.lb a.ub a.lbA a.ubA, !box)
  else if o.chol then (.initW box a none true, true)
  else if o.warm then (.initW box a (some m.dual) false, true)
  else (.init box a, true)

/-- `dense_qp_qpoases`, dense_qp_qpoases.c:425-793 without timings: `R` is the solver, `none` an assertion
failure in the stacking of slacks -/
def solve (R : List (Call K) → Ans K) (o : Opts K) (big : K) (q old : DQp K) (m : Mem K) :
    Option (Status × (Nat → K) × (Nat → K) × Mem K) :=
  match qpoasesArgs big q old with
  | none => none
  | some a =>
    let c := choose o m (!(decide (q.ng > 0) || decide (q.ns > 0))) a
    let log := m.log ++ [c.1]
    let r := R log
    some (statusOf (if c.2 then r.ret else .successful), r.x, qpoasesLam q r.y,
      { first := if o.hotstart then false else m.first, dual := r.y, log := log })

/-- memory after `dense_qp_qpoases_memory_assign`, dense_qp_qpoases.c:280-375 (`y`: what `dual_sol` holds) -/
def fresh (y : Nat → K) : Mem K := { first := true, dual := y, log := [] }

/-- a sequence of solves with the same options -/
def run (R : List (Call K) → Ans K) (o : Opts K) (big : K) (old : DQp K) :
    List (DQp K) → Mem K → Option (Mem K)
  | [], m => some m
  | q :: qs, m =>
    match solve R o big q old m with
    | none => none
    | some (_, _, _, m') => run R o big old qs m'

/-! ## Options -/

/-- fields of `dense_qp_qpoases_opts_set`, dense_qp_qpoases.c:136-203 (`print_level` has no effect) -/
inductive OptField (K : Type*) where
  | tolStat (v : K) | tolEq (v : K) | tolIneq (v : K) | tolComp (v : K)
  | warmStart (v : Int) | iterMax (v : Int) | printLevel (v : Int) | other

/-- defaults, dense_qp_qpoases.c:112-127 -/
def Opts.default : Opts K := { hotstart := false, warm := true, chol := false, maxNwsr := 1000, tol := 1 / 10000 }

/-- `dense_qp_qpoases_opts_set`; `none` is `exit(1)` -/
def optsSet (o : Opts K) : OptField K → Option (Opts K)
  | .tolStat v => some { o with tol := cmin o.tol v }
  | .tolEq v => some { o with tol := cmin o.tol v }
  | .tolIneq v => some { o with tol := cmin o.tol v }
  | .tolComp v => some { o with tol := cmin o.tol v }
  | .warmStart v =>
    if v = 0 then some { o with warm := false, hotstart := false }
    else if v = 1 then some { o with warm := true, hotstart := false }
    else if v = 2 then some { o with warm := true, hotstart := true }
    else none
  | .iterMax v => some { o with maxNwsr := v }
  | .printLevel _ => some o
  | .other => none

end

/-! ## HPIPM and DAQP -/

/-- status values of HPIPM (`hpipm_common.h`, external) -/
inductive Hpipm where
  | success | maxIter | minStep | nanSol | inconsEq | other
  deriving DecidableEq

/-- dense_qp_hpipm.c:346-352 and ocp_qp_hpipm.c:398-404 -/
def hpipmStatus : Hpipm → Status
  | .success => .success
  | .maxIter => .maxIter
  | .minStep => .minStep
  | .nanSol => .nanDetected
  | .inconsEq => .infeasible
  | .other => .unknown

/-- value of a status, types.h:74-87 -/
def code : Status → Int
  | .unknown => -1
  | .success => 0
  | .nanDetected => 1
  | .maxIter => 2
  | .minStep => 3
  | .qpFailure => 4
  | .ready => 5
  | .unbounded => 6
  | .timeout => 7
  | .qpscalingBounds => 8
  | .infeasible => 9

/-- exit flags of DAQP (`daqp/constants.h`, external) -/
structure DaqpFlags where
  optimal : Int
  softOptimal : Int
  iterLimit : Int
  infeasible : Int
  unbounded : Int

/-- return value of `dense_qp_daqp`, dense_qp_daqp.c:860-899: `setup` is the result of
`dense_qp_daqp_update_memory` (negative: setting up failed), `ldp` that of `daqp_ldp` -/
def daqpStatus (f : DaqpFlags) (setup ldp : Int) : Int :=
  if setup < 0 then setup
  else if ldp = f.optimal ∨ ldp = f.softOptimal then code .success
  else if ldp = f.iterLimit then code .maxIter
  else if ldp = f.infeasible then code .infeasible
  else if ldp = f.unbounded then code .unbounded
  else code .unknown

end Acados.QpCall
