import Mathlib.Algebra.Order.Field.Basic

/-!
# Solver options set from Python

The options a user can change after the creation of a solver, their types, the solvers they belong to and the values
they take; and the option that a call stands for.
-/

namespace Acados.OptSet

/-- `nlp_solver_type`: `SQP`, `SQP_RTI`, `DDP`, `SQP_WITH_FEASIBLE_QP` -/
inductive Solver
  | sqp | rti | ddp | wfqp
  deriving DecidableEq

/-- `globalization`: `FIXED_STEP`, `MERIT_BACKTRACKING`, `FUNNEL_L1PEN_LINESEARCH` -/
inductive Glob
  | fixedStep | merit | funnel
  deriving DecidableEq

/-- types of options -/
inductive Ty
  | int | float | bool
  deriving DecidableEq

/-- members of the option structs of the solver and its globalization -/
inductive Reg
  | rtiPhase | asRtiLevel | maxIter | printLevel | levMarq | tauMin | withAdapt | adaptLam | adaptMuMin | adaptMu0
  | anderson | tolStat | tolEq | tolIneq | tolComp | warmFirst | warmFirstNlp | qpWarm
  | stepLength | alphaRed | alphaMin | eps | fullDual | lineSearch | soc
  | funnelIncr | funnelUpper | funnelDecr | funnelKappa | funnelFrac | funnelPen
  deriving DecidableEq

/-- a Python value; `other`: neither number nor truth value -/
inductive PyVal (K : Type)
  | int (n : Int) | float (x : K) | bool (b : Bool) | other

/-- a C object: `int`, `double` or `bool` -/
inductive Cell (K : Type)
  | int (n : Int) | dbl (x : K) | bool (b : Bool)
  deriving DecidableEq

/-- what the description says about the solver: types, `nlp_solver_max_iter`, `as_rti_level` -/
structure Config where
  solver : Solver
  glob : Glob
  maxIter : Int
  asRtiLevel : Int

/-- the options of `options_set` -/
inductive Opt
  | printLevel | rtiPhase | lineSearch | fullDual | soc | warmFirst | asRtiLevel | maxIter | nlpMaxIter | qpWarm | qpPrint
  | qpT0 | stepLength | alphaMin | alphaRed | eps | funnelIncr | funnelUpper | funnelDecr | funnelKappa | funnelFrac
  | funnelPen | levMarq | adaptLam | adaptMuMin | adaptMu0 | tauMin | tolEq | tolStat | tolIneq | tolComp | qpTolStat
  | qpTolEq | qpTolIneq | qpTolComp | qpTauMin | qpMu0 | anderson | withAdapt | warmFirstNlp
  deriving DecidableEq

namespace Opt

/-- the name in Python -/
def name : Opt → List Char
  | printLevel => "print_level".toList
  | rtiPhase => "rti_phase".toList
  | lineSearch => "globalization_line_search_use_sufficient_descent".toList
  | fullDual => "globalization_full_step_dual".toList
  | soc => "globalization_use_SOC".toList
  | warmFirst => "warm_start_first_qp".toList
  | asRtiLevel => "as_rti_level".toList
  | maxIter => "max_iter".toList
  | nlpMaxIter => "nlp_solver_max_iter".toList
  | qpWarm => "qp_warm_start".toList
  | qpPrint => "qp_print_level".toList
  | qpT0 => "qp_t0_init".toList
  | stepLength => "globalization_fixed_step_length".toList
  | alphaMin => "globalization_alpha_min".toList
  | alphaRed => "globalization_alpha_reduction".toList
  | eps => "globalization_eps_sufficient_descent".toList
  | funnelIncr => "globalization_funnel_init_increase_factor".toList
  | funnelUpper => "globalization_funnel_init_upper_bound".toList
  | funnelDecr => "globalization_funnel_sufficient_decrease_factor".toList
  | funnelKappa => "globalization_funnel_kappa".toList
  | funnelFrac => "globalization_funnel_fraction_switching_condition".toList
  | funnelPen => "globalization_funnel_initial_penalty_parameter".toList
  | levMarq => "levenberg_marquardt".toList
  | adaptLam => "adaptive_levenberg_marquardt_lam".toList
  | adaptMuMin => "adaptive_levenberg_marquardt_mu_min".toList
  | adaptMu0 => "adaptive_levenberg_marquardt_mu0".toList
  | tauMin => "tau_min".toList
  | tolEq => "tol_eq".toList
  | tolStat => "tol_stat".toList
  | tolIneq => "tol_ineq".toList
  | tolComp => "tol_comp".toList
  | qpTolStat => "qp_tol_stat".toList
  | qpTolEq => "qp_tol_eq".toList
  | qpTolIneq => "qp_tol_ineq".toList
  | qpTolComp => "qp_tol_comp".toList
  | qpTauMin => "qp_tau_min".toList
  | qpMu0 => "qp_mu0".toList
  | anderson => "anderson_activation_threshold".toList
  | withAdapt => "with_adaptive_levenberg_marquardt".toList
  | warmFirstNlp => "warm_start_first_qp_from_nlp".toList

/-- the type of the option -/
def ty : Opt → Ty
  | printLevel | rtiPhase | lineSearch | fullDual | soc | warmFirst | asRtiLevel | maxIter | nlpMaxIter | qpWarm | qpPrint
  | qpT0 => .int
  | withAdapt | warmFirstNlp => .bool
  | _ => .float

/-- the member of the option structs that the option is, if it is one -/
def reg : Opt → Option Reg
  | printLevel => some .printLevel
  | rtiPhase => some .rtiPhase
  | lineSearch => some .lineSearch
  | fullDual => some .fullDual
  | soc => some .soc
  | warmFirst => some .warmFirst
  | asRtiLevel => some .asRtiLevel
  | maxIter => some .maxIter
  | nlpMaxIter => some .maxIter
  | qpWarm => some .qpWarm
  | stepLength => some .stepLength
  | alphaMin => some .alphaMin
  | alphaRed => some .alphaRed
  | eps => some .eps
  | funnelIncr => some .funnelIncr
  | funnelUpper => some .funnelUpper
  | funnelDecr => some .funnelDecr
  | funnelKappa => some .funnelKappa
  | funnelFrac => some .funnelFrac
  | funnelPen => some .funnelPen
  | levMarq => some .levMarq
  | adaptLam => some .adaptLam
  | adaptMuMin => some .adaptMuMin
  | adaptMu0 => some .adaptMu0
  | tauMin => some .tauMin
  | tolEq => some .tolEq
  | tolStat => some .tolStat
  | tolIneq => some .tolIneq
  | tolComp => some .tolComp
  | anderson => some .anderson
  | withAdapt => some .withAdapt
  | warmFirstNlp => some .warmFirstNlp
  | qpPrint | qpT0 | qpTolStat | qpTolEq | qpTolIneq | qpTolComp | qpTauMin | qpMu0 => none

/-- the option of the QP solver that is set, if any -/
def qp : Opt → Option (List Char)
  | qpWarm => some "warm_start".toList
  | qpPrint => some "print_level".toList
  | qpT0 => some "t0_init".toList
  | qpTolStat | tolStat => some "tol_stat".toList
  | qpTolEq | tolEq => some "tol_eq".toList
  | qpTolIneq | tolIneq => some "tol_ineq".toList
  | qpTolComp | tolComp => some "tol_comp".toList
  | qpTauMin | tauMin => some "tau_min".toList
  | qpMu0 => some "mu0".toList
  | _ => none

end Opt

section
variable {K : Type}

/-- a value of a type; truth values are integers in Python -/
def PyVal.cell : Ty → PyVal K → Option (Cell K)
  | .int, .int n => some (.int n)
  | .int, .bool b => some (.int (if b then 1 else 0))
  | .float, .float x => some (.dbl x)
  | .bool, .bool b => some (.bool b)
  | _, _ => none

/-- what the option holds after a call: the warm start of the first QP is stored as a truth value -/
def stored : Opt → Cell K → Cell K
  | .warmFirst, .int n => .bool (decide (n ≠ 0))
  | _, a => a

/-- the solver has the option -/
def Applies (c : Config) : Opt → Prop
  | .rtiPhase | .asRtiLevel => c.solver = .rti
  | .maxIter | .nlpMaxIter => c.solver ≠ .rti
  | .stepLength => c.glob = .fixedStep
  | .funnelIncr | .funnelUpper | .funnelDecr | .funnelKappa | .funnelFrac | .funnelPen => c.glob = .funnel
  | _ => True

variable [Field K] [LinearOrder K]

/-- the values an option can take -/
def InRange (c : Config) : Opt → Cell K → Prop
  | .stepLength, .dbl x | .funnelPen, .dbl x => 0 ≤ x ∧ x ≤ 1
  | .funnelIncr, .dbl x => 1 < x
  | .funnelUpper, .dbl x => 0 < x
  | .funnelDecr, .dbl x | .funnelKappa, .dbl x | .funnelFrac, .dbl x => 0 < x ∧ x < 1
  | .printLevel, .int n => 0 ≤ n ∧ n < 2 ^ 31
  | .rtiPhase, .int n => 0 ≤ n ∧ n ≤ 2 ∧ (n = 0 → c.asRtiLevel = 4)
  | .asRtiLevel, .int n => 0 ≤ n ∧ n ≤ 4
  | .maxIter, .int n | .nlpMaxIter, .int n => -2 ^ 31 ≤ n ∧ n < 2 ^ 31 ∧ n ≤ c.maxIter
  | .warmFirst, .int n => n = 0 ∨ n = 1
  | _, .int n => -2 ^ 31 ≤ n ∧ n < 2 ^ 31
  | _, _ => True

/-- the values a member of the option structs may hold -/
def Domain : Reg → Cell K → Prop
  | .stepLength, a | .funnelPen, a => ∃ x, a = .dbl x ∧ 0 ≤ x ∧ x ≤ 1
  | .funnelIncr, a => ∃ x, a = .dbl x ∧ 1 < x
  | .funnelUpper, a => ∃ x, a = .dbl x ∧ 0 < x
  | .funnelDecr, a | .funnelKappa, a | .funnelFrac, a => ∃ x, a = .dbl x ∧ 0 < x ∧ x < 1
  | .printLevel, a => ∃ n, a = .int n ∧ 0 ≤ n ∧ n < 2 ^ 31
  | .rtiPhase, a => ∃ n, a = .int n ∧ 0 ≤ n ∧ n ≤ 2
  | .asRtiLevel, a => ∃ n, a = .int n ∧ 0 ≤ n ∧ n ≤ 4
  | .maxIter, a | .qpWarm, a | .fullDual, a | .lineSearch, a | .soc, a => ∃ n, a = .int n ∧ -2 ^ 31 ≤ n ∧ n < 2 ^ 31
  | .withAdapt, a | .warmFirst, a | .warmFirstNlp, a => ∃ b, a = .bool b
  | _, a => ∃ x, a = .dbl x

/-- the value of a member after a sequence of calls: that of the last call for it -/
def lastFor (r : Reg) : List (Opt × Cell K) → Cell K → Cell K
  | [], d => d
  | (o, a) :: l, d => lastFor r l (if o.reg = some r then stored o a else d)

end

end Acados.OptSet
