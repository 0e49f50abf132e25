import Verif.Model.Erk
import Verif.Spec.Rk
import Mathlib.Analysis.Calculus.FDeriv.Basic
import Mathlib.Analysis.Normed.Module.FiniteDimension
/-!
# Specification of one call of the explicit integrator

The solution map is the `N`-fold application of the textbook Runge-Kutta step `Rk.step` to the state with the
control and the parameters held constant.
-/
namespace Acados.Erk

/-- the right-hand side at fixed control and parameters -/
def field {K : Type*} {nx nu np : Nat} (o : Ode K nx nu np) (u : Fin nu → K) (p : Fin np → K) :
    (Fin nx → K) → (Fin nx → K) := fun x i => o.f x u p i

/-- the solution map: `N` Runge-Kutta steps of length `T / N` with tableau `a`, `b` -/
def solution {K : Type*} [Field K] {nx nu np : Nat} (o : Ode K nx nu np) (ns : Nat) (a : Nat → Nat → K)
    (b : Nat → K) (T : K) (N : Nat) (x : Fin nx → K) (u : Fin nu → K) (p : Fin np → K) : Fin nx → K :=
  (Rk.step (field o u p) ns a b (T / (N : K)))^[N] x

/-- the generated Jacobian functions are the partial derivatives of the generated right-hand side -/
def Ode.Differentiated {nx nu np : Nat} (o : Ode ℝ nx nu np) : Prop :=
  ∀ z : (Fin nx → ℝ) × (Fin nu → ℝ) × (Fin np → ℝ),
    ∃ L : ((Fin nx → ℝ) × (Fin nu → ℝ) × (Fin np → ℝ)) →L[ℝ] (Fin nx → ℝ),
      HasFDerivAt (fun z : (Fin nx → ℝ) × (Fin nu → ℝ) × (Fin np → ℝ) => field o z.2.1 z.2.2 z.1) L z ∧
      ∀ d i, L d i = (∑ k : Fin nx, o.fx z.1 z.2.1 z.2.2 i k * d.1 k)
        + (∑ k : Fin nu, o.fu z.1 z.2.1 z.2.2 i k * d.2.1 k)
        + ∑ k : Fin np, o.fp z.1 z.2.1 z.2.2 i k * d.2.2 k

end Acados.Erk
