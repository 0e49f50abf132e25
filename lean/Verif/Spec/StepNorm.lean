import Mathlib.Algebra.Order.Field.Basic
import Mathlib.Algebra.Order.Group.Abs

/-!
# Step norms

Steps of an iteration, the entries that belong to the problem, and maximum norms.
-/

namespace Acados.StepNorm

/-- Dimensions: `nv` primal variables (slacks included) and `ni` inequalities at a stage. -/
structure Dims where
  N : ℕ
  nx : ℕ → ℕ
  nu : ℕ → ℕ
  ns : ℕ → ℕ
  ni : ℕ → ℕ

/-- Vectors by stage. -/
structure Vecs (K : Type*) where
  ux : ℕ → ℕ → K
  pi : ℕ → ℕ → K
  lam : ℕ → ℕ → K

/-- Primal entries of the problem. -/
def Dims.primal {K : Type*} (d : Dims) (v : Vecs K) (a : K) : Prop :=
  ∃ i j, i ≤ d.N ∧ j < d.nx i + d.nu i + 2 * d.ns i ∧ v.ux i j = a

/-- Dual entries of the problem. -/
def Dims.dual {K : Type*} (d : Dims) (v : Vecs K) (a : K) : Prop :=
  (∃ i j, i < d.N ∧ j < d.nx (i + 1) ∧ v.pi i j = a) ∨ ∃ i j, i ≤ d.N ∧ j < 2 * d.ni i ∧ v.lam i j = a

/-- `n` is the largest absolute value of the entries, 0 without entries. -/
def IsNorm {K : Type*} [Field K] [LinearOrder K] (entry : K → Prop) (n : K) : Prop :=
  0 ≤ n ∧ (∀ a, entry a → |a| ≤ n) ∧ (n = 0 ∨ ∃ a, entry a ∧ |a| = n)

/-- The difference of two vectors. -/
def diff {K : Type*} [Field K] (a b : Vecs K) : Vecs K :=
  ⟨fun i j => a.ux i j - b.ux i j, fun i j => a.pi i j - b.pi i j, fun i j => a.lam i j - b.lam i j⟩

/-- The step of one iteration: the QP solution (multipliers are new values), the iterate before, and
the accelerated step if Anderson acceleration is used. -/
structure Step (K : Type*) where
  qp : Vecs K
  old : Vecs K
  anderson : Option (Vecs K)

/-- The primal step that is meant. -/
def Step.primal {K : Type*} (s : Step K) : Vecs K := s.anderson.getD s.qp

/-- The dual step that is meant. -/
def Step.dual {K : Type*} [Field K] (s : Step K) : Vecs K := s.anderson.getD (diff s.qp s.old)

end Acados.StepNorm
