import Mathlib.Algebra.Polynomial.AlgebraMap
import Mathlib.RingTheory.PowerSeries.Basic
import Mathlib.Data.Nat.Factorial.Basic
/-!
# Diagonal Padé approximants of the exponential

`padeN m / padeD m` is the diagonal approximant of degree `m`, normalised to leading coefficient 1 in the
numerator.
-/
namespace Acados.Math
open Finset Polynomial
variable (K : Type*) [Field K]

/-- `(2m-k)! / (k! (m-k)!)` -/
def padeCoeff (m k : Nat) : K :=
  ((2 * m - k).factorial : K) / ((k.factorial : K) * ((m - k).factorial : K))
noncomputable def padeN (m : Nat) : K[X] := ∑ k ∈ range (m + 1), C (padeCoeff K m k) * X ^ k
noncomputable def padeD (m : Nat) : K[X] := ∑ k ∈ range (m + 1), C ((-1) ^ k * padeCoeff K m k) * X ^ k
/-- the power series `∑ z^k / k!` -/
noncomputable def expSeries : PowerSeries K := PowerSeries.mk fun k => 1 / (k.factorial : K)

end Acados.Math
