import Mathlib.Algebra.Field.Defs
import Mathlib.Algebra.Order.Ring.Defs
import Mathlib.Algebra.BigOperators.Group.Finset.Basic

/-!
Specification for C104: active constraints, strict complementarity and linear independence of the
constraint gradients (LICQ) at a point.  Written without the functions that check them.

Constraints are grouped by stage; every constraint has a lower and an upper bound (`none` is
infinite), its value at the point, a multiplier (negative at lower bounds, positive at upper
bounds, as CasADi reports them) and its gradient with respect to all variables of the problem.
-/

namespace Acados.Regularity

/-- A constraint `lb ≤ c(w) ≤ ub` at a point. -/
structure Con (K : Type*) where
  lb : Option K
  ub : Option K
  val : K
  lam : K
  grad : ℕ → K

section
variable {K : Type*} [Field K] [LinearOrder K]

omit [Field K] [LinearOrder K] in
/-- Equality constraints have two equal bounds. -/
def Con.IsEq (c : Con K) : Prop := ∃ a, c.lb = some a ∧ c.ub = some a

/-- An inequality is active at its lower bound, up to a tolerance. -/
def Con.ActLo (tol : K) (c : Con K) : Prop := ¬ c.IsEq ∧ ∃ a, c.lb = some a ∧ c.val - a < tol

/-- An inequality is active at its upper bound, up to a tolerance. -/
def Con.ActUp (tol : K) (c : Con K) : Prop := ¬ c.IsEq ∧ ∃ b, c.ub = some b ∧ b - c.val < tol

/-- An inequality is violated by more than a tolerance. -/
def Con.Violated (tol : K) (c : Con K) : Prop :=
  ¬ c.IsEq ∧ ((∃ a, c.lb = some a ∧ c.val < a - tol) ∨ ∃ b, c.ub = some b ∧ b + tol < c.val)

/-- Strict complementarity: the multiplier of an active bound is not close to zero. -/
def Con.Strict (tol : K) (c : Con K) : Prop :=
  (c.ActLo tol → tol ≤ -c.lam) ∧ (c.ActUp tol → tol ≤ c.lam)

/-- Gradient of constraint `i` of a stage. -/
def gradAt (l : List (Con K)) (i q : ℕ) : K := (l[i]?).elim 0 (fun c => c.grad q)

/-- A choice of one coefficient for every equality (`e`), every lower (`l`) and every upper bound
(`u`) that vanishes where the constraint is not active, or where the equality is left out. -/
def Supported (N : ℕ) (cons : ℕ → List (Con K)) (tol : K) (skip : ℕ → ℕ → Prop)
    (e l u : ℕ → ℕ → K) : Prop :=
  ∀ k i c, k ≤ N → (cons k)[i]? = some c →
    (¬ c.IsEq ∨ skip k i → e k i = 0) ∧ (¬ c.ActLo tol → l k i = 0) ∧ (¬ c.ActUp tol → u k i = 0)

/-- The gradients of all equalities, except those left out, and of all active bounds of the stages
`0, …, N` are linearly independent: no other than the trivial combination vanishes. -/
def LicqExcept (N : ℕ) (cons : ℕ → List (Con K)) (tol : K) (skip : ℕ → ℕ → Prop) : Prop :=
  ∀ e l u : ℕ → ℕ → K, Supported N cons tol skip e l u →
    (∀ q, ∑ k ∈ Finset.range (N + 1), ∑ i ∈ Finset.range (cons k).length,
      (e k i - l k i + u k i) * gradAt (cons k) i q = 0) →
    ∀ k ≤ N, ∀ i < (cons k).length, e k i = 0 ∧ l k i = 0 ∧ u k i = 0

/-- LICQ. -/
def Licq (N : ℕ) (cons : ℕ → List (Con K)) (tol : K) : Prop :=
  LicqExcept N cons tol (fun _ _ => False)

omit [LinearOrder K] in
/-- Constraints of a stage do not depend on the variables of earlier stages. -/
def Staged (N : ℕ) (cons : ℕ → List (Con K)) (vars : ℕ → List ℕ) : Prop :=
  ∀ k ≤ N, ∀ c ∈ cons k, ∀ j < k, ∀ q ∈ vars j, c.grad q = 0

end

end Acados.Regularity
