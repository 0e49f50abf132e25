import Verif.Model.ReducHess
import Verif.Spec.Quad
import Verif.Props.Reg
/-!
# Specification for the projection of the reduced Hessian (C78)
-/
namespace Acados.ReducHess
open Finset
open Acados.Reg (lowerSym EigFn)
variable {K : Type*} [Field K] [LinearOrder K]

/-- `z` (stage vectors `(u, x)`) is a direction of the linearised dynamics from stage `k` on:
`x⁺ = B u + A x` -/
def Traj (D : Data K) (k : Nat) (z : Nat → Nat → K) : Prop :=
  ∀ i, k ≤ i → i < D.N → ∀ c < D.nx (i + 1),
    z (i + 1) (D.nu (i + 1) + c) = ∑ r ∈ range (D.nux i), D.BAbt i r c * z i r

/-- the quadratic form of the QP Hessian along `z`, stages `k … N`; the QP solver reads the lower
triangles of the blocks -/
def form (D : Data K) (H : Nat → Nat → Nat → K) (k : Nat) (z : Nat → Nat → K) : K :=
  ∑ i ∈ Ico k (D.N + 1), quad (D.nux i) (lowerSym (H i)) (z i)

/-- `|(u₀, x₀)|² + |u₁|² + … + |u_N|²`: the squared size of the free variables of the condensed QP -/
def freeSq (D : Data K) (z : Nat → Nat → K) : K :=
  sqn (D.nux 0) (z 0) + ∑ i ∈ Ico 1 (D.N + 1), sqn (D.nu i) (z i)

/-- the eigenvalue routine is exact (it reads the triangle `j ≤ i` of the row-major array) -/
def EigAll (eig : EigFn K) : Prop :=
  ∀ n A, EigOk n (lowerSym A) (eig n A).1 (eig n A).2

/-- the Cholesky factorisation is exact: if the leading `n × n` block is positive definite, the
factor `F` satisfies `F Fᵀ = A` in the first `n` columns -/
def PotrfOk (potrf : Nat → Nat → (Nat → Nat → K) → (Nat → Nat → K)) : Prop :=
  ∀ m n A, (∃ c, 0 < c ∧ QuadGe n (lowerSym A) c) →
    ∀ r < m, ∀ c < n, c ≤ r → ∑ k ∈ range n, potrf m n A r k * potrf m n A c k = A r c

/-- state of stage `k` -/
def stateOf (D : Data K) (k : Nat) (z : Nat → Nat → K) : Nat → K := fun c => z k (D.nu k + c)

/-- `z` starts at `x` and is a stationary point of the form with Hessian `H` over the stages `k … N`
among the directions of the dynamics with this initial state -/
def Stationary (D : Data K) (H : Nat → Nat → Nat → K) (k : Nat) (x : Nat → K) (z : Nat → Nat → K) : Prop :=
  Traj D k z ∧ (∀ c < D.nx k, stateOf D k z c = x c) ∧
    ∀ δ, Traj D k δ → (∀ c < D.nx k, stateOf D k δ c = 0) →
      form D H k (fun i r => z i r + δ i r) = form D H k z + form D H k δ

/-- `z` starts at `x` and minimises the form over the stages `k … N` -/
def Minimal (D : Data K) (H : Nat → Nat → Nat → K) (k : Nat) (x : Nat → K) (z : Nat → Nat → K) : Prop :=
  Traj D k z ∧ (∀ c < D.nx k, stateOf D k z c = x c) ∧
    ∀ w, Traj D k w → (∀ c < D.nx k, stateOf D k w c = x c) → form D H k z ≤ form D H k w

/-- the stationary cost-to-go of `H` from `x` at stage `k` equals the minimal cost-to-go of `H'` -/
def SameCostToGo (D : Data K) (H H' : Nat → Nat → Nat → K) (k : Nat) (x : Nat → K) : Prop :=
  ∃ z z', Stationary D H k x z ∧ Minimal D H' k x z' ∧ form D H k z = form D H' k z'

/-- `L3` before column `j` is eliminated -/
def elimAt (o : Opts K) (n u : Nat) (A : Nat → Nat → K) (j : Nat) : Nat → Nat → K :=
  (List.range j).foldl (elimStep o n u) A

/-- every pivot met by the elimination of stage `ss` is at least `min_pivot` in absolute value -/
def GoodPivots (o : Opts K) (D : Data K) (ss : Nat) (s : Mem K) : Prop :=
  ∀ j < D.nu ss, o.minPivot ≤ |elimAt o (D.nux ss) (D.nu ss) (stL3 D ss s) j j j|

/-- memory when stage `i` is reached by the backward sweep -/
def pre (E : Ext K) (o : Opts K) (D : Data K) (s : Mem K) (i : Nat) : Mem K := run E o D s (D.N - i)

end Acados.ReducHess
