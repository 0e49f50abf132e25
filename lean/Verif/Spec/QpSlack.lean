import Mathlib.Algebra.BigOperators.Group.Finset.Basic
import Mathlib.Algebra.Order.Field.Basic
/-!
# Constraints of a stage of a quadratic program
-/
namespace Acados.QpSlack
open Finset
variable {K : Type} [Field K] [LinearOrder K]

/-- constraints of a stage: `nv` variables (controls and states), `nb` bounds, `ng` linear constraints, `ns` slacks for each side;
`d = [lb; lg; -ub; -ug; ls; us]`, `rev` the slack of a constraint, `none` if it is hard -/
structure Stage (K : Type) where
  nv : Nat
  nb : Nat
  ng : Nat
  ns : Nat
  idxb : Nat → Nat
  Ct : Nat → Nat → K
  d : Nat → K
  rev : Nat → Option Nat

/-- value of constraint `j` at the point `v`: a variable or a linear form -/
def Stage.val (s : Stage K) (v : Nat → K) (j : Nat) : K :=
  if j < s.nb then v (s.idxb j) else ∑ i ∈ range s.nv, s.Ct i (j - s.nb) * v i

/-- lower and upper slack of constraint `j`: the slack variables follow the `nv` variables, lower ones first -/
def Stage.sl (s : Stage K) (v : Nat → K) (j : Nat) : K := (s.rev j).elim 0 fun k => v (s.nv + k)
def Stage.su (s : Stage K) (v : Nat → K) (j : Nat) : K := (s.rev j).elim 0 fun k => v (s.nv + s.ns + k)

/-- the point satisfies all constraints: `lower - sl ≤ value ≤ upper + su`, slacks at least their bounds -/
def Stage.Feasible (s : Stage K) (v : Nat → K) : Prop :=
  (∀ j < s.nb + s.ng, s.d j - s.sl v j ≤ s.val v j ∧ s.val v j ≤ -s.d (s.nb + s.ng + j) + s.su v j)
    ∧ ∀ k < 2 * s.ns, s.d (2 * s.nb + 2 * s.ng + k) ≤ v (s.nv + k)

/-- first index of stage `k` in a contiguous array of stages of sizes `size` -/
def start (size : Nat → Nat) (k : Nat) : Nat := ∑ j ∈ range k, size j

end Acados.QpSlack
