import Mathlib.Algebra.BigOperators.Group.Finset.Basic
import Mathlib.Algebra.Ring.Defs
import Mathlib.Data.Finset.Range
/-!
# Specification of the second-order correction (C50)

The subproblem is written in the step `q`.  Stage data: `nv = nu + nx` inputs and states, `nb` bounds, `ng` general
constraints, slacks after the states.  A constraint `c ≤ 0` or `c = 0` with derivative `J` at the current iterate and a
trial step `p` is corrected to `c(w + p) + J (q - p)`.
-/
namespace Acados.Soc
open Finset
variable {K : Type*} [CommRing K]

/-- corrected constraint value: function at the trial point, derivative times difference of steps -/
def corrected (n : Nat) (cTrial : K) (J : Nat → K) (p q : Nat → K) : K := cTrial + ∑ i ∈ range n, J i * (q i - p i)

/-- `J · v` -/
def dot (n : Nat) (J v : Nat → K) : K := ∑ i ∈ range n, J i * v i

/-- dynamics residual of the subproblem: `A q + b - q_next` -/
def dynRes (n : Nat) (J : Nat → K) (b : K) (q : Nat → K) (qNext : K) : K := dot n J q + b - qNext

/-- lower constraint of the subproblem, `≤ 0`: `d - J q - slack` -/
def lowRes (n : Nat) (J : Nat → K) (d : K) (q : Nat → K) (slack : K) : K := d - dot n J q - slack

/-- upper constraint of the subproblem, `≤ 0` (bounds stored with opposite sign): `d + J q - slack` -/
def uppRes (n : Nat) (J : Nat → K) (d : K) (q : Nat → K) (slack : K) : K := d + dot n J q - slack

end Acados.Soc
