import Mathlib.Algebra.BigOperators.Group.List.Basic
import Mathlib.Algebra.Group.Int.Defs
/-!
# Multi-phase problems: what a stage should get
-/
namespace Acados.MultiPhase

/-- which of the three descriptions of a phase belongs to a stage -/
inductive Kind | init | path | term
  deriving DecidableEq

inductive Integ | erk | irk | liftedIrk | gnsf | discrete
  deriving DecidableEq

/-- the dimensions of a stage -/
inductive Dim | nx | nu | nz | ns | np | ny | nbu | nbx | ng | nh | nphi | nr | nsbu | nsbx | nsg | nsh | nsphi | nbxe
  deriving DecidableEq

/-- the description of a phase: types of cost and constraints (`cost_type_0`, `cost_type`, `cost_type_e`, ...), dimensions
(`ny_0`, `ny`, `ny_e`, ...; the dimensions without suffix under `path`), dimension of the next state, integrator, parameter values -/
structure Phase (K : Type) where
  cost : Kind → Nat
  constr : Kind → Nat
  dims : Kind → Dim → Nat
  nxNext : Nat
  integ : Integ
  p : List K

/-- stage `i` lies in phase `j` if the lengths of the phases are `Nl` -/
def InPhase (Nl : List Int) (i : Int) (j : Nat) : Prop :=
  j < Nl.length ∧ (Nl.take j).sum ≤ i ∧ i < (Nl.take (j + 1)).sum

/-- dimensions that have an extra description for the initial stage -/
def Dim.own0 : Dim → Bool
  | .ns | .ny | .nbx | .nbxe | .nh | .nphi | .nr | .nsh | .nsphi => true
  | _ => false

/-- dimensions that do not exist in a stage -/
def Dim.absent : Kind → Dim → Bool
  | .init, .nsbx => true
  | .path, .nbxe => true
  | .term, .nu | .term, .nbu | .term, .nsbu | .term, .nbxe => true
  | _, _ => false

/-- dimensions shared by all stages of a phase, also if the stage is the terminal one -/
def Dim.shared : Dim → Bool
  | .nx | .nz | .np => true
  | _ => false

/-- the dimension of a stage of a given kind in a phase -/
def Phase.dim {K : Type} (ph : Phase K) (k : Kind) (d : Dim) : Nat :=
  if d.absent k then 0
  else match k with
    | .path => ph.dims .path d
    | .init => if d.own0 then ph.dims .init d else ph.dims .path d
    | .term => if d.shared then ph.dims .path d else ph.dims .term d

end Acados.MultiPhase
