import Verif.Spec.Irk
import Mathlib.LinearAlgebra.Lagrange
/-!
# Specification of the algebraic outputs
-/
namespace Acados.Irk
variable {K : Type*} [Field K]

/-- `v` is the value at `xx` of a polynomial of degree less than `n` through the points `(c_i, y_i)`
(unique when the `c_i` are distinct) -/
def Interp {n : Nat} (c y : Fin n → K) (xx v : K) : Prop :=
  ∃ p : Polynomial K, p.degree < n ∧ (∀ i, p.eval (c i) = y i) ∧ p.eval xx = v

end Acados.Irk
