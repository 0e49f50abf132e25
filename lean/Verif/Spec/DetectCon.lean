import Mathlib.Algebra.Order.Field.Basic
import Mathlib.Algebra.BigOperators.Group.Finset.Basic
/-!
# Constraint detection: feasible points
-/
namespace Acados.DetectCon
variable {K : Type} [Field K] [LinearOrder K]
open Finset

/-- a scalar constraint function of states, controls and the other arguments (`z`, parameters) -/
abbrev Fn (K : Type) := (Nat → K) → (Nat → K) → (Nat → K) → K

/-- `lo ≤ v ≤ hi` -/
def Within (lo hi v : K) : Prop := lo ≤ v ∧ v ≤ hi

/-- an affine function of states and controls with gradient `J` (states first) -/
def AffineWith (nx nu : Nat) (f : Fn K) (J : Nat → K) : Prop :=
  ∀ x u w, f x u w = (∑ i ∈ range nx, J i * x i) + (∑ i ∈ range nu, J (nx + i) * u i) + f (fun _ => 0) (fun _ => 0) (fun _ => 0)

end Acados.DetectCon
