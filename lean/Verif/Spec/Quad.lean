import Verif.Model.QpScaling
/-!
# Quadratic forms

Positive definiteness in elementary terms.
-/
namespace Acados
open Finset
variable {K : Type*} [Field K] [LinearOrder K]

/-- `xᵀ A x` for the leading `n` block -/
def quad (n : Nat) (A : Nat → Nat → K) (x : Nat → K) : K :=
  ∑ i ∈ range n, x i * ∑ j ∈ range n, A i j * x j

/-- `|x|²` -/
def sqn (n : Nat) (x : Nat → K) : K := ∑ i ∈ range n, x i ^ 2

/-- the leading block is symmetric -/
def SymOn (n : Nat) (A : Nat → Nat → K) : Prop := ∀ i < n, ∀ j < n, A i j = A j i

/-- `A ≥ c·I` in the sense of quadratic forms -/
def QuadGe (n : Nat) (A : Nat → Nat → K) (c : K) : Prop := ∀ x, c * sqn n x ≤ quad n A x

/-- `V` is orthogonal and `A = V·diag(d)·Vᵀ` on the leading block -/
structure EigOk (n : Nat) (A V : Nat → Nat → K) (d : Nat → K) : Prop where
  rows : ∀ i < n, ∀ j < n, ∑ k ∈ range n, V i k * V j k = if i = j then 1 else 0
  cols : ∀ k < n, ∀ l < n, ∑ i ∈ range n, V i k * V i l = if k = l then 1 else 0
  dec : ∀ i < n, ∀ j < n, A i j = ∑ k ∈ range n, V i k * d k * V j k

end Acados
