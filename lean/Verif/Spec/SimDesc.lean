import Mathlib.Data.List.Basic

/-!
# Descriptions of integrators

The description (`AcadosSim`), which descriptions are documented as valid, and which of two places an
option is taken from.
-/

namespace Acados.SimDesc

/-- Types of integrators of `AcadosSim`. -/
inductive Integ
  | erk | irk | gnsf
  deriving DecidableEq

/-- Numbers of entries of the symbols and expressions of a model; 0: empty or not given. -/
structure Model where
  name : String
  x : ℕ
  xdot : ℕ
  u : ℕ
  z : ℕ
  p : ℕ
  pGlobal : ℕ
  fImpl : ℕ
  fExpl : ℕ
  deriving DecidableEq

/-- A Python value that is equal to `True` or `False`: `1` is, but is not a `bool`. -/
structure Truth where
  val : Bool
  isBool : Bool
  deriving DecidableEq

/-- Options of the integrator; the last three are deprecated. -/
structure Opts (K : Type*) where
  integ : Integ
  T : Option K
  numStages : ℕ
  numSteps : ℕ
  sensHess : Bool
  flags : String
  expand : Bool
  sensP : Truth
  deriving DecidableEq

/-- Options of code generation: `dir` is a directory, `json` a file in it. -/
structure Gen where
  flags : String
  expand : Bool
  sensP : Bool
  hess : Bool
  dir : Option String
  json : Option String
  deriving DecidableEq

/-- A description. -/
structure Sim (K : Type*) where
  model : Model
  opts : Opts K
  gen : Gen
  shape : List ℕ
  values : List K
  name : Option String
  deriving DecidableEq

/-- Options that exist in two places. -/
inductive Fd
  | flags | expand | sensP
  deriving DecidableEq

/-- Lengths agree with the documentation. -/
def Model.Ok (m : Model) : Prop :=
  0 < m.x ∧ (m.xdot = 0 ∨ m.xdot = m.x) ∧ m.pGlobal = 0 ∧ (m.fImpl = 0 ∨ m.fImpl = m.x + m.z) ∧
    (m.fExpl = 0 ∨ m.fExpl = m.x)

/-- The expression an integrator needs is given. -/
def Model.Has (m : Model) : Integ → Prop
  | .erk => m.fExpl ≠ 0
  | .irk | .gnsf => m.fImpl ≠ 0

/-- Sensitivities for parameters are supported by the integrator. -/
def SensOk (g : Gen) (i : Integ) : Prop := g.sensP = true → i ≠ .gnsf

/-- One place: the value there is used unless it is the default, then the deprecated one. -/
def effective {α : Type*} [DecidableEq α] (default old new : α) : α := if new = default then old else new

/-- An optimal control problem, as far as it describes the integrator of its first interval; after
`make_consistent`. `integ = none`: a type that `AcadosSim` does not have. -/
structure Ocp (K : Type*) where
  model : Model
  params : List K
  globals : List K
  integ : Option Integ
  timeSteps : List K
  numStages : List ℕ
  numSteps : List ℕ
  gen : Gen

/-- What `make_consistent` of the problem ensures. -/
def Ocp.Ok {K : Type*} (o : Ocp K) : Prop :=
  ({ o.model with pGlobal := 0 } : Model).Ok ∧ o.params.length = o.model.p ∧
    o.globals.length = o.model.pGlobal ∧ 0 < o.timeSteps.length ∧
    o.numStages.length = o.timeSteps.length ∧ o.numSteps.length = o.timeSteps.length ∧
    o.gen.dir ≠ none ∧ o.gen.json ≠ none

end Acados.SimDesc
