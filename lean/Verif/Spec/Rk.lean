import Mathlib.Algebra.BigOperators.Ring.Finset
import Mathlib.Algebra.Module.BigOperators
import Mathlib.Algebra.Field.Defs
/-!
# Explicit Runge-Kutta methods (textbook form)

For an autonomous system `y' = f y` in a vector space: `k_s = f (y + h ∑_{j<s} a_{sj} k_j)`,
`y⁺ = y + h ∑_s b_s k_s`.
-/
namespace Acados.Rk
open Finset
variable {K V : Type*} [Semiring K] [AddCommMonoid V] [Module K V]

/-- point at which stage `s` is evaluated, from the earlier stages `k` -/
def stagePoint (a : Nat → Nat → K) (h : K) (y : V) (k : Nat → V) (s : Nat) : V :=
  y + ∑ j ∈ range s, (h * a s j) • k j

/-- the first `m` stages -/
def stages (f : V → V) (a : Nat → Nat → K) (h : K) (y : V) : Nat → Nat → V
  | 0 => fun _ => 0
  | m + 1 => Function.update (stages f a h y m) m (f (stagePoint a h y (stages f a h y m) m))

/-- one step -/
def step (f : V → V) (ns : Nat) (a : Nat → Nat → K) (b : Nat → K) (h : K) (y : V) : V :=
  y + ∑ s ∈ range ns, (h * b s) • stages f a h y ns s

/-- Butcher's order conditions (one per rooted tree) for a tableau `(a, b, c)` with `n` stages, orders 1 to 4 -/
structure OrderConditions {K : Type*} [Field K] (n : Nat) (a : Nat → Nat → K) (b c : Nat → K) (p : Nat) : Prop where
  one : 1 ≤ p → ∑ i ∈ range n, b i = 1
  two : 2 ≤ p → ∑ i ∈ range n, b i * c i = 1 / 2
  three : 3 ≤ p → ∑ i ∈ range n, b i * c i ^ 2 = 1 / 3
  three' : 3 ≤ p → ∑ i ∈ range n, ∑ j ∈ range n, b i * a i j * c j = 1 / 6
  four : 4 ≤ p → ∑ i ∈ range n, b i * c i ^ 3 = 1 / 4
  four' : 4 ≤ p → ∑ i ∈ range n, ∑ j ∈ range n, b i * c i * a i j * c j = 1 / 8
  four'' : 4 ≤ p → ∑ i ∈ range n, ∑ j ∈ range n, b i * a i j * c j ^ 2 = 1 / 12
  four''' : 4 ≤ p → ∑ i ∈ range n, ∑ j ∈ range n, ∑ k ∈ range n, b i * a i j * a j k * c k = 1 / 24

end Acados.Rk
