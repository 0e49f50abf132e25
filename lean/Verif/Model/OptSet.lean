import Verif.Model.QpOpts
import Verif.Spec.OptSet

/-!
# `options_set` of the Python interface and the option setters in C

`interfaces/acados_template/acados_template/acados_ocp_solver.py`, `AcadosOcpSolver.options_set` (lines 2460-2583);
`ocp_nlp_sqp_opts_set` (ocp_nlp_sqp.c:137-171), `ocp_nlp_sqp_rti_opts_set` (ocp_nlp_sqp_rti.c:149-213),
`ocp_nlp_ddp_opts_set` (ocp_nlp_ddp.c:132-155), `ocp_nlp_sqp_wfqp_opts_set` (ocp_nlp_sqp_with_feasible_qp.c:146-210),
`ocp_nlp_opts_set` (ocp_nlp_common.c:1338-1685) and the setters of the globalizations
(ocp_nlp_globalization_common.c:106-147, ocp_nlp_globalization_fixed_step.c:83-103,
ocp_nlp_globalization_funnel.c:98-173, ocp_nlp_globalization_merit_backtracking.c:84-92).

Fields that `options_set` does not pass are left out of the C setters.  The branch of a C setter for a field is data
(`Branch`), found by the comparisons of the code, and then executed.  The setter of the QP solver is a parameter (C100).
`double` is an arbitrary linearly ordered field.  Subclasses of the Python types are not modelled.
-/

namespace Acados.OptSet

/-- a Python exception, `exit(1)`, undefined behaviour -/
inductive Err
  | raise | exit | ub
  deriving DecidableEq

/-- checks of a value in C -/
inductive Chk
  | any | intIn (lo hi : Int) | nonneg | maxIter | closed01 | open01 | pos | gt1
  deriving DecidableEq

/-- a branch of a setter: a member is read through a pointer of type `ty` and checked; with `regQp` the buffer goes to
the QP solver too; with `qp` it goes to the QP solver and may be kept by the NLP solver -/
inductive Branch
  | reg (ty : Ty) (chk : Chk) (r : Reg)
  | regQp (ty : Ty) (r : Reg) (g : List Char)
  | qp (g : List Char) (r : Option Reg)
  deriving DecidableEq

/-- `ocp_nlp_globalization_opts_set`, ocp_nlp_globalization_common.c:106-147 -/
def globCommon (f : List Char) : Option Branch :=
  if f = "alpha_reduction".toList then some (.reg .float .any .alphaRed)
  else if f = "alpha_min".toList then some (.reg .float .any .alphaMin)
  else if f = "eps_sufficient_descent".toList then some (.reg .float .any .eps)
  else if f = "full_step_dual".toList then some (.reg .int .any .fullDual)
  else if f = "line_search_use_sufficient_descent".toList then some (.reg .int .any .lineSearch)
  else if f = "use_SOC".toList then some (.reg .int .any .soc)
  else none

/-- the setters of the globalizations; `none` is `exit(1)` -/
def globBranch (g : Glob) (f : List Char) : Option Branch :=
  match g with
  | .merit => globCommon f
  | .fixedStep => if f = "fixed_step_length".toList then some (.reg .float .closed01 .stepLength) else globCommon f
  | .funnel =>
      if f = "funnel_init_increase_factor".toList then some (.reg .float .gt1 .funnelIncr)
      else if f = "funnel_init_upper_bound".toList then some (.reg .float .pos .funnelUpper)
      else if f = "funnel_sufficient_decrease_factor".toList then some (.reg .float .open01 .funnelDecr)
      else if f = "funnel_kappa".toList then some (.reg .float .open01 .funnelKappa)
      else if f = "funnel_fraction_switching_condition".toList then some (.reg .float .open01 .funnelFrac)
      else if f = "funnel_initial_penalty_parameter".toList then some (.reg .float .closed01 .funnelPen)
      else globCommon f

/-- `ocp_nlp_opts_set`, ocp_nlp_common.c:1338-1685 -/
def nlpBranch (g : Glob) (f : List Char) : Option Branch :=
  if QpOpts.moduleOf f = some "qp".toList then
    some (.qp (QpOpts.restOf f) (if f = "qp_warm_start".toList then some .qpWarm else none))
  else if QpOpts.moduleOf f = some "globalization".toList then globBranch g (QpOpts.restOf f)
  else if f = "levenberg_marquardt".toList then some (.reg .float .any .levMarq)
  else if f = "tau_min".toList then some (.regQp .float .tauMin f)
  else if f = "with_adaptive_levenberg_marquardt".toList then some (.reg .bool .any .withAdapt)
  else if f = "adaptive_levenberg_marquardt_lam".toList then some (.reg .float .any .adaptLam)
  else if f = "adaptive_levenberg_marquardt_mu_min".toList then some (.reg .float .any .adaptMuMin)
  else if f = "adaptive_levenberg_marquardt_mu0".toList then some (.reg .float .any .adaptMu0)
  else if f = "max_iter".toList ∨ f = "nlp_solver_max_iter".toList then some (.reg .int .maxIter .maxIter)
  else if f = "print_level".toList then some (.reg .int .nonneg .printLevel)
  else if f = "anderson_activation_threshold".toList then some (.reg .float .any .anderson)
  else if f = "tol_stat".toList then some (.regQp .float .tolStat "tol_stat".toList)
  else if f = "tol_eq".toList then some (.regQp .float .tolEq "tol_eq".toList)
  else if f = "tol_ineq".toList then some (.regQp .float .tolIneq "tol_ineq".toList)
  else if f = "tol_comp".toList then some (.regQp .float .tolComp "tol_comp".toList)
  else if f = "warm_start_first_qp".toList then some (.reg .bool .any .warmFirst)
  else if f = "warm_start_first_qp_from_nlp".toList then some (.reg .bool .any .warmFirstNlp)
  else none

/-- the setters of the solvers: ocp_nlp_sqp.c:137-171, ocp_nlp_sqp_rti.c:149-213, ocp_nlp_ddp.c:132-155,
ocp_nlp_sqp_with_feasible_qp.c:146-210 -/
def solverBranch (s : Solver) (g : Glob) (f : List Char) : Option Branch :=
  match s with
  | .rti =>
      if QpOpts.moduleOf f = some "qp".toList then nlpBranch g f
      else if f = "rti_phase".toList then some (.reg .int (.intIn 0 2) .rtiPhase)
      else if f = "as_rti_level".toList then some (.reg .int (.intIn 0 4) .asRtiLevel)
      else nlpBranch g f
  | .sqp => nlpBranch g f
  | .ddp => nlpBranch g f
  | .wfqp => nlpBranch g f

/-- options: struct members and the options of the QP solver -/
structure St (K Q : Type) where
  reg : Reg → Cell K
  qp : Q

section
variable {K Q : Type}

/-- `*(T *) value`: of the four bytes of an `int` (least significant first) a `bool` pointer reads the first; a `bool`
object with another value than 0 or 1, and all other mismatches, are undefined behaviour -/
def read : Ty → Cell K → Except Err (Cell K)
  | .int, .int n => .ok (.int n)
  | .float, .dbl x => .ok (.dbl x)
  | .bool, .bool b => .ok (.bool b)
  | .bool, .int n => if n % 256 = 0 then .ok (.bool false) else if n % 256 = 1 then .ok (.bool true) else .error .ub
  | _, _ => .error .ub

section
variable [Field K] [LinearOrder K]

/-- the checks: ocp_nlp_sqp_rti.c:171-176, 197-202, ocp_nlp_common.c:1558-1565, 1570-1574,
ocp_nlp_globalization_fixed_step.c:91-95, ocp_nlp_globalization_funnel.c:106, 116, 126, 136, 146, 156; `false`: the value
is ignored with a warning, as `max_iter` of real-time solvers -/
def check (rt : Bool) : Chk → Cell K → Except Err Bool
  | .intIn lo hi, .int n => if n < lo ∨ hi < n then .error .exit else .ok true
  | .nonneg, .int n => if n < 0 then .error .exit else .ok true
  | .maxIter, .int n => .ok (!(decide (0 < n) && rt))
  | .closed01, .dbl x => if x < 0 ∨ 1 < x then .error .exit else .ok true
  | .open01, .dbl x => if x ≤ 0 ∨ 1 ≤ x then .error .exit else .ok true
  | .pos, .dbl x => if x ≤ 0 then .error .exit else .ok true
  | .gt1, .dbl x => if x ≤ 1 then .error .exit else .ok true
  | _, _ => .ok true

/-- execution of a branch with a buffer -/
def apply (qpSet : List Char → Cell K → Q → Except Err Q) (rt : Bool) (b : Branch) (buf : Cell K) (s : St K Q) :
    Except Err (St K Q) :=
  match b with
  | .reg t k r => do
      let a ← read t buf
      let w ← check rt k a
      .ok (if w then { s with reg := Function.update s.reg r a } else s)
  | .regQp t r g => do
      let a ← read t buf
      let q ← qpSet g buf s.qp
      .ok { reg := Function.update s.reg r a, qp := q }
  | .qp g r => do
      let q ← qpSet g buf s.qp
      match r with
      | none => .ok { s with qp := q }
      | some r => do
          let a ← read .int buf
          .ok { reg := Function.update s.reg r a, qp := q }

/-- `int_fields`, acados_ocp_solver.py:2490-2501 -/
def intFields : List (List Char) :=
  ["print_level".toList, "rti_phase".toList, "globalization_line_search_use_sufficient_descent".toList,
   "globalization_full_step_dual".toList, "globalization_use_SOC".toList, "warm_start_first_qp".toList,
   "as_rti_level".toList, "max_iter".toList, "nlp_solver_max_iter".toList, "qp_warm_start".toList,
   "qp_print_level".toList, "qp_t0_init".toList]

/-- `double_fields`, acados_ocp_solver.py:2502-2527 -/
def doubleFields : List (List Char) :=
  ["globalization_fixed_step_length".toList, "globalization_alpha_min".toList, "globalization_alpha_reduction".toList,
   "globalization_eps_sufficient_descent".toList, "globalization_funnel_init_increase_factor".toList,
   "globalization_funnel_init_upper_bound".toList, "globalization_funnel_sufficient_decrease_factor".toList,
   "globalization_funnel_kappa".toList, "globalization_funnel_fraction_switching_condition".toList,
   "globalization_funnel_initial_penalty_parameter".toList, "levenberg_marquardt".toList,
   "adaptive_levenberg_marquardt_lam".toList, "adaptive_levenberg_marquardt_mu_min".toList,
   "adaptive_levenberg_marquardt_mu0".toList, "tau_min".toList, "tol_eq".toList, "tol_stat".toList,
   "tol_ineq".toList, "tol_comp".toList, "qp_tol_stat".toList, "qp_tol_eq".toList, "qp_tol_ineq".toList,
   "qp_tol_comp".toList, "qp_tau_min".toList, "qp_mu0".toList, "anderson_activation_threshold".toList]

/-- `bool_fields`, acados_ocp_solver.py:2529; `string_fields` is empty -/
def boolFields : List (List Char) :=
  ["with_adaptive_levenberg_marquardt".toList, "warm_start_first_qp_from_nlp".toList, "warm_start_first_qp".toList]

/-- which list a field is found in first, acados_ocp_solver.py:2531-2555 -/
def pyType (f : List Char) : Option Ty :=
  if f ∈ intFields then some .int
  else if f ∈ doubleFields then some .float
  else if f ∈ boolFields then some .bool
  else none

/-- `c_int(value)` keeps the lower 32 bits -/
def wrap (n : Int) : Int := (n + 2147483648) % 4294967296 - 2147483648

/-- type check and conversion, acados_ocp_solver.py:2531-2555 -/
def pyBuf (f : List Char) (v : PyVal K) : Except Err (Cell K) :=
  match pyType f with
  | none => .error .raise
  | some .int =>
      (match v with
       | .int n => .ok (.int (wrap n))
       | .bool b => .ok (.int (if b then 1 else 0))
       | _ => .error .raise)
  | some .float => (match v with | .float x => .ok (.dbl x) | _ => .error .raise)
  | some .bool => (match v with | .bool b => .ok (.bool b) | _ => .error .raise)

/-- the integer a Python value compares as -/
def PyVal.num : PyVal K → Int
  | .int n => n
  | .bool b => if b then 1 else 0
  | _ => 0

/-- checks of values, acados_ocp_solver.py:2558-2571; they use the options of the description -/
def pyGuard (c : Config) (f : List Char) (v : PyVal K) : Except Err Unit :=
  if (f = "max_iter".toList ∨ f = "nlp_solver_max_iter".toList) ∧ c.maxIter < v.num then .error .raise
  else if f = "rti_phase".toList then
    if v.num < 0 ∨ 2 < v.num then .error .raise
    else if c.solver ≠ .rti ∧ 0 < v.num then .error .raise
    else if c.solver = .rti ∧ c.asRtiLevel ≠ 4 ∧ v.num = 0 then .error .raise
    else .ok ()
  else .ok ()

/-- `options_set(field_, value_)`, acados_ocp_solver.py:2460-2583 -/
def optionsSet (qpSet : List Char → Cell K → Q → Except Err Q) (c : Config) (f : List Char) (v : PyVal K)
    (s : St K Q) : Except Err (St K Q) := do
  let buf ← pyBuf f v
  pyGuard c f v
  match solverBranch c.solver c.glob f with
  | none => .error .exit
  | some b => apply qpSet (decide (c.solver = .rti)) b buf s

/-- a program that goes on after exceptions -/
def runCalls (qpSet : List Char → Cell K → Q → Except Err Q) (c : Config) :
    List (List Char × PyVal K) → St K Q → Except Err (St K Q)
  | [], s => .ok s
  | (f, v) :: l, s =>
      match optionsSet qpSet c f v s with
      | .ok s' => runCalls qpSet c l s'
      | .error .raise => runCalls qpSet c l s
      | .error e => .error e

end

/-- how a real-time solver starts: preparation and feedback together are not possible with advanced-step levels,
ocp_nlp_sqp_rti.c:1161-1190 -/
def rtiStart (s : St K Q) : Except Err Unit :=
  match s.reg .rtiPhase, s.reg .asRtiLevel with
  | .int 0, .int 4 => .ok ()
  | .int 0, .int _ => .error .exit
  | _, _ => .ok ()

section
variable [Field K] [LinearOrder K]

/-- the buffer as the setters of the QP solvers read it (C100); none of them reads a `bool` -/
def toVal : Cell K → Except Err (QpOpts.Val K)
  | .int n => .ok (.int n)
  | .dbl x => .ok (.dbl x)
  | .bool _ => .error .ub

/-- `ocp_qp_xcond_solver_opts_set_` (ocp_qp_xcond_solver.c:282-309, C100) as the setter of the QP solver -/
def qpOf (E : QpOpts.Ext) (g : List Char) (a : Cell K) (x : QpOpts.Xcond K) : Except Err (QpOpts.Xcond K) := do
  let v ← toVal a
  match QpOpts.xcondSet E g v x with
  | .ok x' => .ok x'
  | .error .exit => .error .exit
  | .error _ => .error .ub

end

end

end Acados.OptSet
