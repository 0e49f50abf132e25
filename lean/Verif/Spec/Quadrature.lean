import Mathlib.Algebra.Polynomial.Eval.Defs
import Mathlib.Data.Real.Basic
import Mathlib.Algebra.BigOperators.Group.Finset.Basic
/-!
# Node polynomial of a quadrature formula
-/
namespace Acados.Quadrature
open Polynomial Finset

/-- the monic polynomial vanishing at the nodes -/
noncomputable def nodal (ns : Nat) (c : Nat → ℝ) : ℝ[X] := ∏ i ∈ range ns, (X - C (c i))

end Acados.Quadrature
