import Verif.Model.DenseQp
/-!
# Meaning of a dense QP with slack variables

`min 1/2 x'Hx + g'x + 1/2 s'Zs + z's` subject to `Ax = b`, `lb - sl ≤ x ≤ ub + su`, `lg - sl ≤ Cx ≤ ug + su`
and `sl ≥ ls`, `su ≥ us`; hard constraints have no slack.
-/
namespace Acados.DenseQp
open Finset
section
variable {K : Type*} [Field K] [LinearOrder K]

/-- value of constraint `i` (first the bounds, then the general constraints) -/
def row (q : DQp K) (v : Nat → K) (i : Nat) : K :=
  if i < q.nb then v (q.idxb i) else ∑ j ∈ range q.nv, q.Ct j (i - q.nb) * v j

/-- coefficient of variable `j` in constraint `i` -/
def coef (q : DQp K) (i j : Nat) : K :=
  if i < q.nb then (if q.idxb i = j then 1 else 0) else q.Ct j (i - q.nb)

/-- constraint `i` has a slack -/
def Soft (q : DQp K) (i : Nat) : Prop := q.ns ≠ 0 ∧ q.idxsRev i ≠ -1

instance (q : DQp K) (i : Nat) : Decidable (Soft q i) := by unfold Soft; infer_instance

/-- its index -/
def slackOf (q : DQp K) (i : Nat) : Nat := (q.idxsRev i).toNat

/-- lower and upper slack of constraint `i` -/
def sl (q : DQp K) (v : Nat → K) (i : Nat) : K := if Soft q i then v (q.nv + slackOf q i) else 0
def su (q : DQp K) (v : Nat → K) (i : Nat) : K := if Soft q i then v (q.nv + q.ns + slackOf q i) else 0

/-- lower and upper bound of constraint `i` -/
def lo (q : DQp K) (i : Nat) : K := q.d i
def up (q : DQp K) (i : Nat) : K := -q.d (q.nb + q.ng + i)

/-- lower bound of slack `j` (`j < 2 * ns`) -/
def slb (q : DQp K) (j : Nat) : K := q.d (2 * q.nb + 2 * q.ng + j)

structure Feasible (q : DQp K) (v : Nat → K) : Prop where
  eq : ∀ e, e < q.ne → ∑ j ∈ range q.nv, q.A e j * v j = q.b e
  lower : ∀ i, i < q.nb + q.ng → q.mask i ≠ 0 → lo q i ≤ row q v i + sl q v i
  upper : ∀ i, i < q.nb + q.ng → q.mask (q.nb + q.ng + i) ≠ 0 → row q v i - su q v i ≤ up q i
  slack : ∀ j, j < 2 * q.ns → q.mask (2 * (q.nb + q.ng) + j) ≠ 0 → slb q j ≤ v (q.nv + j)

/-- the QP with all constraints active (the solvers behind the stacked QP do not look at the mask) -/
def unmasked (q : DQp K) : DQp K := { q with mask := fun _ => 1 }

/-- objective -/
def obj (q : DQp K) (v : Nat → K) : K :=
  (∑ i ∈ range q.nv, ∑ j ∈ range q.nv, q.H i j * v i * v j) / 2 + ∑ i ∈ range q.nv, q.gz i * v i
    + ∑ j ∈ range (2 * q.ns), (q.Z j * v (q.nv + j) * v (q.nv + j) / 2 + q.gz (q.nv + j) * v (q.nv + j))

/-- admissible index data: bounds on existing variables, every slack belongs to exactly one constraint -/
structure WF (q : DQp K) : Prop where
  idxb : ∀ i, i < q.nb → q.idxb i < q.nv
  rev : ∀ i, i < q.nb + q.ng → q.idxsRev i = -1 ∨ (0 ≤ q.idxsRev i ∧ q.idxsRev i < q.ns)
  once : ∀ i, i < q.nb + q.ng → ∀ j, j < q.nb + q.ng → q.idxsRev i ≠ -1 → q.idxsRev i = q.idxsRev j → i = j
  used : ∀ s, s < q.ns → ∃ i, i < q.nb + q.ng ∧ q.idxsRev i = (s : Int)

/-- optimality conditions (HPIPM conventions): `lam` are the multipliers in the order of `d` -/
structure Kkt (q : DQp K) (v lam : Nat → K) : Prop where
  feas : Feasible q v
  nonneg : ∀ i, i < 2 * (q.nb + q.ng + q.ns) → 0 ≤ lam i
  stat : ∀ j, j < q.nv → ∑ k ∈ range q.nv, q.H j k * v k + q.gz j
    = ∑ i ∈ range (q.nb + q.ng), (lam i - lam (q.nb + q.ng + i)) * coef q i j
  statL : ∀ i, i < q.nb + q.ng → Soft q i →
    q.Z (slackOf q i) * v (q.nv + slackOf q i) + q.gz (q.nv + slackOf q i)
      = lam i + lam (2 * (q.nb + q.ng) + slackOf q i)
  statU : ∀ i, i < q.nb + q.ng → Soft q i →
    q.Z (q.ns + slackOf q i) * v (q.nv + q.ns + slackOf q i) + q.gz (q.nv + q.ns + slackOf q i)
      = lam (q.nb + q.ng + i) + lam (2 * (q.nb + q.ng) + q.ns + slackOf q i)
  compL : ∀ i, i < q.nb + q.ng → lam i * (row q v i + sl q v i - lo q i) = 0
  compU : ∀ i, i < q.nb + q.ng → lam (q.nb + q.ng + i) * (up q i - row q v i + su q v i) = 0
  compS : ∀ j, j < 2 * q.ns → lam (2 * (q.nb + q.ng) + j) * (v (q.nv + j) - slb q j) = 0

/-- `(x, y)` solves the QP given to qpOASES; positive dual variables belong to lower bounds -/
structure QSol (a : QArgs K) (x y : Nat → K) : Prop where
  box : ∀ j, j < a.n → a.lb j ≤ x j ∧ x j ≤ a.ub j
  con : ∀ c, c < a.m → a.lbA c ≤ ∑ j ∈ range a.n, a.C c j * x j ∧ ∑ j ∈ range a.n, a.C c j * x j ≤ a.ubA c
  stat : ∀ j, j < a.n → ∑ k ∈ range a.n, a.H j k * x k + a.g j = y j + ∑ c ∈ range a.m, y (a.n + c) * a.C c j
  compB : ∀ j, j < a.n → (0 < y j → x j = a.lb j) ∧ (y j < 0 → x j = a.ub j)
  compC : ∀ c, c < a.m → (0 < y (a.n + c) → ∑ j ∈ range a.n, a.C c j * x j = a.lbA c) ∧
    (y (a.n + c) < 0 → ∑ j ∈ range a.n, a.C c j * x j = a.ubA c)

end
end Acados.DenseQp
