import Verif.Model.AsRti
import Mathlib.Tactic.LinearCombination
import Mathlib.Tactic.Ring
/-!
# Lemmas on the advanced-step iterations
-/
namespace Acados.AsRti
open Finset
variable {K : Type} [Field K] [LinearOrder K]

/-- without a step a QP is optimal if gradient, multipliers and right-hand sides fit -/
theorem kkt_noStep (d : Dims) (q : Quad K) (pi lam : Nat → Nat → K) :
    q.Kkt d (noStep pi lam) ↔
      (∀ k ≤ d.N, ∀ i < d.nv k, q.g k i + dynTerm d q.A pi k i + ∑ j ∈ range (2 * d.ni k), q.G k i j * lam k j = 0)
      ∧ ((∀ k < d.N, ∀ j < d.nx (k + 1), q.b k j = 0) ∧ ∀ k ≤ d.N, ∀ j < 2 * d.ni k, q.d k j ≤ 0) ∧ Compl d q.d lam := by
  have h0 : ∀ (n : Nat) (f : Nat → K), ∑ i ∈ range n, f i * (0 : K) = 0 := fun n f => sum_eq_zero fun i _ => mul_zero _
  unfold Quad.Kkt noStep
  simp only [h0, add_zero, zero_add]
  tauto

theorem feasible_iff (d : Dims) (p : Nlp K) (v : Nat → Nat → K) :
    p.Feasible d v ↔ (∀ k < d.N, ∀ j < d.nx (k + 1), dynFun d p v k j = 0) ∧ ∀ k ≤ d.N, ∀ j < 2 * d.ni k, p.h k (v k) j ≤ 0 := by
  unfold Nlp.Feasible dynFun
  simp only [sub_eq_zero]

/-- gradient of level C -/
theorem levelC_g (d : Dims) (p : Nlp K) (m : Mem K) (k i : Nat) :
    (levelC d p m).g k i + dynTerm d m.A m.out.pi k i = p.grad k (m.out.v k) i + dynTerm d (fun k => p.dphi k (m.out.v k)) m.out.pi k i := by
  unfold levelC dynTerm dynAdj
  dsimp only
  by_cases h : k < d.N ∧ i < d.nw k
  · rw [if_pos h, if_pos h, if_pos h]; ring
  · rw [if_neg h, if_neg h, if_neg h]

theorem sym_lower {d : Dims} {L H : Nat → Nat → Nat → K} (h : LowerOf d L H) {k i j : Nat} (hi : i < d.nw k) (hj : j < d.nw k) : sym (L k) i j = H k i j := by
  unfold sym
  by_cases c : j ≤ i
  · rw [if_pos c]; exact (h k i j hi hj).2 c
  · rw [if_neg c, (h k j i hj hi).2 (by omega)]; exact (h k j i hj hi).1

/-- the Hessian of the QP times a step -/
theorem hess_mul (d : Dims) (m : Mem K) {H : Nat → Nat → Nat → K} (h : LowerOf d m.L H) (w : Nat → Nat → K) (k i : Nat) (hi : i < d.nv k) :
    ∑ j ∈ range (d.nv k), hess d m k i j * w k j = hessTimes d H m.Z w k i := by
  have hv : d.nv k = d.nw k + 2 * d.ns k := rfl
  unfold hessTimes
  by_cases c : i < d.nw k
  · rw [if_pos c, hv, sum_range_add]
    have e1 : ∑ x ∈ range (2 * d.ns k), hess d m k i (d.nw k + x) * w k (d.nw k + x) = 0 := by
      refine sum_eq_zero fun x _ => ?_
      unfold hess
      rw [if_neg (by omega), if_neg (by omega), zero_mul]
    rw [e1, add_zero]
    refine sum_congr rfl fun j hj => ?_
    have hj := mem_range.1 hj
    unfold hess
    rw [if_pos ⟨c, hj⟩, sym_lower h c hj]
  · rw [if_neg c, sum_eq_single i]
    · unfold hess
      rw [if_neg (by omega), if_pos rfl]
    · intro j _ hj
      unfold hess
      rw [if_neg (by omega), if_neg (Ne.symm hj), zero_mul]
    · intro hn
      exact absurd (mem_range.2 hi) hn

/-- what iterations leave alone -/
theorem iter_keeps (d : Dims) (sol : Quad K → Point K) (a : K) (full : Bool) (upd : Mem K → Mem K)
    (hu : ∀ m, (upd m).L = m.L ∧ (upd m).A = m.A ∧ (upd m).G = m.G ∧ (upd m).Z = m.Z) (n : Nat) (m : Mem K) :
    (iter d sol a full upd n m).L = m.L ∧ (iter d sol a full upd n m).A = m.A ∧ (iter d sol a full upd n m).G = m.G
    ∧ (iter d sol a full upd n m).Z = m.Z := by
  induction n generalizing m with
  | zero => exact ⟨rfl, rfl, rfl, rfl⟩
  | succ n ih =>
    unfold iter
    obtain ⟨a1, a2, a3, a4⟩ := ih (solve d sol a full (upd m))
    obtain ⟨b1, b2, b3, b4⟩ := hu m
    exact ⟨a1.trans b1, a2.trans b2, a3.trans b3, a4.trans b4⟩

/-- the gradient of the QP is that of the quadratic model at the point before the last step -/
def Tracks (d : Dims) (gb : Nat → Nat → K) (L : Nat → Nat → Nat → K) (vb : Nat → Nat → K) (m : Mem K) : Prop :=
  m.L = L ∧ ∀ k i, i < d.nw k → m.g k i + ∑ j ∈ range (d.nw k), sym (L k) i j * m.step k j
    = gb k i + ∑ j ∈ range (d.nw k), sym (L k) i j * (m.out.v k j - vb k j)

theorem tracks_zeroOrder (d : Dims) (p : Nlp K) {gb : Nat → Nat → K} {L : Nat → Nat → Nat → K} {vb : Nat → Nat → K} {m : Mem K} (h : Tracks d gb L vb m) :
    (zeroOrder d p m).L = L ∧ ∀ k i, i < d.nw k → (zeroOrder d p m).g k i = gb k i + ∑ j ∈ range (d.nw k), sym (L k) i j * (m.out.v k j - vb k j) := by
  refine ⟨h.1, fun k i hi => ?_⟩
  rw [← h.2 k i hi]
  show (if i < d.nw k then _ else _) = _
  rw [if_pos hi, h.1]

theorem tracks_solve (d : Dims) (sol : Quad K → Point K) (full : Bool) {gb : Nat → Nat → K} {L : Nat → Nat → Nat → K} {vb : Nat → Nat → K} {m : Mem K} (hL : m.L = L)
    (h : ∀ k i, i < d.nw k → m.g k i = gb k i + ∑ j ∈ range (d.nw k), sym (L k) i j * (m.out.v k j - vb k j)) :
    Tracks d gb L vb (solve d sol 1 full m) := by
  refine ⟨hL, fun k i hi => ?_⟩
  have hg := h k i hi
  unfold solve
  dsimp only
  rw [hg, add_assoc, ← sum_add_distrib]
  congr 1
  refine sum_congr rfl fun j _ => ?_
  ring

theorem tracks_iter (d : Dims) (p : Nlp K) (sol : Quad K → Point K) (full : Bool) {gb : Nat → Nat → K} {L : Nat → Nat → Nat → K} {vb : Nat → Nat → K} (n : Nat) {m : Mem K}
    (h : Tracks d gb L vb m) : Tracks d gb L vb (iter d sol 1 full (zeroOrder d p) n m) := by
  induction n generalizing m with
  | zero => exact h
  | succ n ih =>
    unfold iter
    refine ih (tracks_solve d sol full h.1 ?_)
    exact (tracks_zeroOrder d p h).2

end Acados.AsRti
