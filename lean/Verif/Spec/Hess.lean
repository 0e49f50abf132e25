import Mathlib.Algebra.BigOperators.Ring.Finset
import Mathlib.Analysis.Calculus.Deriv.Basic
/-!
# Specification: which second-order terms a QP Hessian block must contain

The user chooses with `exact_hess` and `exact_hess_{cost,dyn,constr}` which second-order terms enter.  The call written
last decides.
-/
namespace Acados.Hess

/-- a request of the user, `exact_hess` concerning all three -/
inductive Req
  | all (v : Bool)
  | cost (v : Bool)
  | dyn (v : Bool)
  | constr (v : Bool)

/-- the last request that concerns the dynamics, `start` if there is none -/
def wantDyn (start : Bool) : List Req → Bool
  | [] => start
  | .all v :: l => wantDyn v l
  | .dyn v :: l => wantDyn v l
  | _ :: l => wantDyn start l

/-- the last request that concerns the constraints -/
def wantConstr (start : Bool) : List Req → Bool
  | [] => start
  | .all v :: l => wantConstr v l
  | .constr v :: l => wantConstr v l
  | _ :: l => wantConstr start l

/-- the last request that concerns the cost -/
def wantCost (start : Bool) : List Req → Bool
  | [] => start
  | .all v :: l => wantCost v l
  | .cost v :: l => wantCost v l
  | _ :: l => wantCost start l

/-- sum of the selected contributions -/
def select {K : Type*} [AddMonoid K] (b : Bool) (H : Nat → Nat → K) (i j : Nat) : K := if b then H i j else 0

/-- generalised Gauss-Newton term of constraints `φ_p(r(w))`, `p < nphi`, with weights `mu p`: `J` the Jacobian of `r`
(`nr` rows), `H p` the Hessian of `φ_p` -/
def gaussNewtonTerm {K : Type*} [CommSemiring K] (nphi nr : Nat) (mu : Nat → K) (J : Nat → Nat → K)
    (H : Nat → Nat → Nat → K) (i j : Nat) : K :=
  ∑ p ∈ Finset.range nphi, mu p * ∑ c ∈ Finset.range nr, (∑ d ∈ Finset.range nr, H p c d * J d i) * J c j

end Acados.Hess
