import Mathlib.Algebra.BigOperators.Ring.Finset
/-!
# Specification: linearised dynamics of a shooting interval

A map `(x, u) ↦ (x⁺, z)` with its derivatives.  A variable index `k < nx` of `(x, u)` is a state, `nx ≤ k < nx + nu` a
control; the NLP stores `(u, x)`, row `r` there corresponds to `toXU r`.
-/
namespace Acados.Dyn

/-- the map and its derivatives: `jac c k = ∂x⁺_c/∂(x,u)_k`, `zjac`, and `hess c k l = ∂²x⁺_c/∂(x,u)_k ∂(x,u)_l` -/
structure StepMap (K : Type*) where
  next : (Nat → K) → (Nat → K) → Nat → K
  alg : (Nat → K) → (Nat → K) → Nat → K
  jac : (Nat → K) → (Nat → K) → Nat → Nat → K
  zjac : (Nat → K) → (Nat → K) → Nat → Nat → K
  hess : (Nat → K) → (Nat → K) → Nat → Nat → Nat → K

/-- the maps depend on the first `nx` states and `nu` controls only -/
def StepMap.Local {K : Type*} (f : StepMap K) (nx nu : Nat) : Prop :=
  ∀ x x' u u', (∀ k < nx, x k = x' k) → (∀ k < nu, u k = u' k) →
    f.next x u = f.next x' u' ∧ f.alg x u = f.alg x' u' ∧ f.jac x u = f.jac x' u' ∧ f.zjac x u = f.zjac x' u'
      ∧ f.hess x u = f.hess x' u'

/-- position in `(x, u)` of entry `r` of `(u, x)` -/
def toXU (nx nu r : Nat) : Nat := if r < nu then nx + r else r - nu

end Acados.Dyn
