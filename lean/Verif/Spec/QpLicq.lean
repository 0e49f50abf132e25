import Mathlib.Algebra.Order.Field.Basic
import Mathlib.Algebra.Order.Group.Abs
import Mathlib.Algebra.BigOperators.Group.Finset.Basic
import Mathlib.Algebra.BigOperators.Group.List.Basic

/-!
# LICQ of an optimal control QP

Constraints as documented in `acados_ocp_qp.py` lines 24-43, without slacks and masks: bounds
are on entries `idxb` of `[u; x]`, those on controls first.
-/

namespace Acados.QpLicq

variable {K : Type*} [Field K] [LinearOrder K]

/-- Data of a stage and the point `(x, u)`; `nxn` is the number of states of the next stage. -/
structure St (K : Type*) where
  nx : ℕ
  nu : ℕ
  nxn : ℕ
  nbx : ℕ
  nbu : ℕ
  ng : ℕ
  A : ℕ → ℕ → K
  B : ℕ → ℕ → K
  C : ℕ → ℕ → K
  D : ℕ → ℕ → K
  idxb : ℕ → ℕ
  lbx : ℕ → K
  ubx : ℕ → K
  lbu : ℕ → K
  ubu : ℕ → K
  lg : ℕ → K
  ug : ℕ → K
  x : ℕ → K
  u : ℕ → K

/-- Constraints of a stage: bounds on states, bounds on controls, linear constraints. -/
inductive P
  | bx (j : ℕ)
  | bu (j : ℕ)
  | g (j : ℕ)
  deriving DecidableEq

/-- All constraints of a stage. -/
def St.cons (s : St K) : List P :=
  (List.range s.nbx).map P.bx ++ (List.range s.nbu).map P.bu ++ (List.range s.ng).map P.g

/-- Lower bounds. -/
def St.lo (s : St K) : P → K
  | .bx j => s.lbx j
  | .bu j => s.lbu j
  | .g j => s.lg j

/-- Upper bounds. -/
def St.up (s : St K) : P → K
  | .bx j => s.ubx j
  | .bu j => s.ubu j
  | .g j => s.ug j

/-- Value of a constraint. -/
def St.value (s : St K) : P → K
  | .bx j => s.x (s.idxb (s.nbu + j) - s.nu)
  | .bu j => s.u (s.idxb j)
  | .g j => ∑ c ∈ Finset.range s.nx, s.C j c * s.x c + ∑ c ∈ Finset.range s.nu, s.D j c * s.u c

/-- Derivative of a constraint with respect to entry `q` of `[x; u]`. -/
def St.grad (s : St K) : P → ℕ → K
  | .bx j, q => if q = s.idxb (s.nbu + j) - s.nu then 1 else 0
  | .bu j, q => if q = s.nx + s.idxb j then 1 else 0
  | .g j, q => if q < s.nx then s.C j q else s.D j (q - s.nx)

/-- Equality up to the tolerances of NumPy. -/
def near (a b : K) : Prop := |a - b| ≤ 1 / 10 ^ 8 + 1 / 10 ^ 5 * |b|

/-- A constraint at one of its bounds. -/
def St.Active (s : St K) (p : P) : Prop := near (s.value p) (s.lo p) ∨ near (s.value p) (s.up p)

/-- Coefficients that vanish for constraints that are not there or not active. -/
def St.Supp (s : St K) (μ : P → K) : Prop := ∀ p, μ p ≠ 0 → p ∈ s.cons ∧ s.Active p

/-- Combination of the gradients of the constraints of a stage. -/
def St.comb (s : St K) (μ : P → K) (q : ℕ) : K := (s.cons.map fun p => μ p * s.grad p q).sum

/-- The gradients of the active constraints of a stage are linearly independent. -/
def St.Indep (s : St K) : Prop :=
  ∀ μ : P → K, s.Supp μ → (∀ q < s.nx + s.nu, s.comb μ q = 0) → ∀ p, μ p = 0

/-- Combination of the rows `A x + B u` of the dynamics. -/
def St.dynComb (s : St K) (π : ℕ → K) (q : ℕ) : K :=
  ∑ r ∈ Finset.range s.nxn, π r * (if q < s.nx then s.A r q else s.B r (q - s.nx))

/-- LICQ for the stages `0, …, N`: no combination of the gradients of the dynamics and of the
active constraints vanishes for all states and controls of all stages, except the trivial one. -/
def Licq (N : ℕ) (st : ℕ → St K) : Prop :=
  ∀ (π : ℕ → ℕ → K) (μ : ℕ → P → K), (∀ k ≤ N, (st k).Supp (μ k)) →
    (∀ k ≤ N, ∀ q < (st k).nx + (st k).nu,
      (st k).comb (μ k) q + (if k < N then (st k).dynComb (π k) q else 0)
        - (if 0 < k ∧ q < (st k).nx then π (k - 1) q else 0) = 0) →
    (∀ k < N, ∀ r < (st k).nxn, π k r = 0) ∧ ∀ k ≤ N, ∀ p, μ k p = 0

/-- Stages for which the positions of bounds are unambiguous: the number of states does not change,
the controls with bounds come first, and there are no bounds on states or no controls. -/
def St.Plain (s : St K) : Prop :=
  s.nxn = s.nx ∧ s.nbu ≤ s.nu ∧ (∀ j < s.nbu, s.idxb j = j) ∧
  (s.nbx = 0 ∨ s.nu = 0 ∧ ∀ j < s.nbx, s.idxb j < s.nx)

end Acados.QpLicq
