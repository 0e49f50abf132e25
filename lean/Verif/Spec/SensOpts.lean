import Mathlib.Data.List.Basic

/-!
# Options for parametric sensitivities of an OCP

What a user chooses, and which choices are documented as supported.
-/

namespace Acados.SensOpts

/-- Types of costs. -/
inductive Cost
  | external | linearLs | nonlinearLs | convexOverNonlinear
  deriving DecidableEq

/-- Types of integrators. -/
inductive Integ
  | erk | irk | gnsf | liftedIrk | discrete
  deriving DecidableEq

/-- QP solvers: the two with HPIPM, all others. -/
inductive Qp
  | partialHpipm | fullHpipm | other
  deriving DecidableEq

/-- Nonlinear constraints of a kind of stages: `bgh`, or `bgp` (convex over nonlinear) with a mark
whether the expressions depend on the global parameters. -/
inductive Constr
  | bgh
  | bgp (depends : Bool)
  deriving DecidableEq

/-- Options of code generation: forward and adjoint solution sensitivities, gradient of the optimal
value, parameter sensitivities of the integrator. -/
structure Gen where
  forw : Bool
  adj : Bool
  val : Bool
  sensP : Bool
  deriving DecidableEq

/-- An OCP, as far as it matters. `oldSol`, `oldVal`, `oldSensP`: the same options at their deprecated
place. The entries from `scaled` on: QP scaling, exact Hessian (no regularisation, no
Levenberg-Marquardt term, exact contributions of all modules, no fixed or custom Hessian), algorithm for condensing,
algorithm of the Riccati recursion. -/
structure Ocp where
  N : ℕ
  npGlobal : ℕ
  cost0 : Cost
  cost : Cost
  costE : Cost
  constr0 : Constr
  constr : Constr
  constrE : Constr
  integ : Integ
  qp : Qp
  condN : Option ℕ
  oldSol : Bool
  oldVal : Bool
  oldSensP : Bool
  gen : Gen
  scaled : Bool
  exactHess : Bool
  condRicAlg : Bool
  ricAlg : Bool
  deriving DecidableEq

/-- The kinds of stages that exist: without intervals there is the terminal stage only. -/
def Ocp.costs (o : Ocp) : List Cost := if 0 < o.N then [o.cost0, o.cost, o.costE] else [o.costE]

/-- Constraints of the kinds of stages that exist. -/
def Ocp.constrs (o : Ocp) : List Constr :=
  if 0 < o.N then [o.constr0, o.constr, o.constrE] else [o.constrE]

/-- Documented requirements of sensitivities for global parameters. -/
structure Ocp.Supported (o : Ocp) : Prop where
  params : 0 < o.npGlobal
  cost : ∀ c ∈ o.costs, c = .external ∨ c = .linearLs
  dyn : 0 < o.N → o.integ = .discrete
  constr : Constr.bgp true ∉ o.constrs

/-- Documented requirements of solution sensitivities at the time of evaluation. -/
structure Ocp.Reliable (o : Ocp) : Prop where
  qp : o.qp ≠ .other
  scaled : o.scaled = false
  exact : o.exactHess = true
  noFull : 0 < o.N → o.qp ≠ .fullHpipm
  noCond : ∀ n, o.condN = some n → o.N ≤ n
  riccati : o.ricAlg = false

/-- What a call does: an exception that can be caught; the whole process ends; a function that was not
generated is called; a result. -/
inductive Outcome
  | raises | exits | undefined | computes
  deriving DecidableEq

end Acados.SensOpts
