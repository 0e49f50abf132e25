import Verif.Model.ControlHorizon
import Mathlib.Algebra.BigOperators.Intervals
import Mathlib.Algebra.BigOperators.GroupWithZero.Action
import Mathlib.Tactic.Ring
import Mathlib.Tactic.Linarith
import Mathlib.Tactic.FieldSimp
import Mathlib.Tactic.NormNum
import Mathlib.Algebra.Order.Ring.Rat
/-! Lemmas for C91. -/
namespace Acados.ControlHorizon
variable {X U K : Type} [Field K] [LinearOrder K] [IsStrictOrderedRing K]
open Finset

/-- the stages with `c` intervals of the first and `m` of the third phase -/
def mk (c m : Nat) (a b : K) : List (Kind × K) := List.replicate c (.normal, a) ++ (.trans, 0) :: List.replicate m (.aug, b)

theorem mk_length (c m : Nat) (a b : K) : (mk c m a b).length = c + m + 1 := by simp [mk]; omega

theorem mk_get (c m : Nat) (a b : K) (k : Nat) :
    (mk c m a b)[k]? = if k < c then some (.normal, a) else if k = c then some (.trans, 0) else if k < c + m + 1 then some (.aug, b) else none := by
  unfold mk
  by_cases h : k < c
  · rw [if_pos h, List.getElem?_append_left (by simpa using h), List.getElem?_replicate, if_pos h]
  · rw [if_neg h, List.getElem?_append_right (by simpa using h), List.length_replicate]
    by_cases h2 : k = c
    · rw [if_pos h2, h2, Nat.sub_self]; rfl
    · rw [if_neg h2]
      obtain ⟨j, hj⟩ : ∃ j, k - c = j + 1 := ⟨k - c - 1, by omega⟩
      rw [hj, List.getElem?_cons_succ, List.getElem?_replicate]
      split
      · rw [if_pos (by omega)]
      · rw [if_neg (by omega)]

/-- states of the multi-phase problem from those of the problem -/
def shift {X : Type} (c : Nat) (x : Nat → X) : Nat → X := fun k => if k ≤ c then x k else x (k - 1)
/-- and back -/
def unshift {X : Type} (c : Nat) (x : Nat → X) : Nat → X := fun k => if k < c then x k else x (k + 1)

theorem mfeas_iff (p : Prob X U K) (c m : Nat) (a b : K) (x : Nat → X) (v u : Nat → U) :
    MFeasible p (mk c m a b) x v u ↔ p.start (x 0)
      ∧ (∀ k < c, x (k + 1) = p.step a (x k) (u k) ∧ p.B (u k) ∧ if k = 0 then p.C0 (x k) (u k) else p.C (x k) (u k))
      ∧ (x (c + 1) = x c ∧ v (c + 1) = u c ∧ p.B (u c))
      ∧ (∀ j < m, x (c + 1 + j + 1) = p.step b (x (c + 1 + j)) (v (c + 1 + j)) ∧ v (c + 1 + j + 1) = v (c + 1 + j) ∧ p.C (x (c + 1 + j)) (v (c + 1 + j)))
      ∧ p.CT (x (c + m + 1)) := by
  unfold MFeasible
  rw [mk_length]
  refine and_congr_right fun _ => ?_
  rw [← and_assoc, ← and_assoc]
  refine and_congr_left fun _ => ?_
  constructor
  · intro h
    refine ⟨⟨?_, ?_⟩, ?_⟩
    · intro k hk
      exact h k (.normal, a) (by rw [mk_get, if_pos hk])
    · exact h c (.trans, 0) (by rw [mk_get, if_neg (lt_irrefl _), if_pos rfl])
    · intro j hj
      exact h (c + 1 + j) (.aug, b) (by rw [mk_get, if_neg (by omega), if_neg (by omega), if_pos (by omega)])
  · rintro ⟨⟨h1, h2⟩, h3⟩ k s hs
    rw [mk_get] at hs
    split at hs
    · rename_i hk; cases hs; exact h1 k hk
    · split at hs
      · rename_i hk; cases hs; subst hk; exact h2
      · split at hs
        · cases hs
          have := h3 (k - (c + 1)) (by omega)
          rw [show c + 1 + (k - (c + 1)) = k by omega] at this
          exact this
        · cases hs

theorem mcost_eq (p : Prob X U K) (c m : Nat) (a b : K) (x : Nat → X) (v u : Nat → U) :
    mcost p (mk c m a b) x v u = (∑ k ∈ range c, a * if k = 0 then p.l0 (x k) (u k) else p.l (x k) (u k))
      + (∑ j ∈ range m, b * p.l (x (c + 1 + j)) (v (c + 1 + j))) + p.lT (x (c + m + 1)) := by
  unfold mcost
  rw [mk_length, show c + m + 1 = (c + 1) + m by omega, sum_range_add, sum_range_succ]
  have e1 : (∑ k ∈ range c, ((mk c m a b)[k]?).elim 0 fun s => stageCost p k s x v u) = ∑ k ∈ range c, a * if k = 0 then p.l0 (x k) (u k) else p.l (x k) (u k) := by
    refine sum_congr rfl fun k hk => ?_
    rw [mk_get, if_pos (mem_range.1 hk)]
    rfl
  have e2 : (∑ j ∈ range m, ((mk c m a b)[c + 1 + j]?).elim 0 fun s => stageCost p (c + 1 + j) s x v u) = ∑ j ∈ range m, b * p.l (x (c + 1 + j)) (v (c + 1 + j)) := by
    refine sum_congr rfl fun j hj => ?_
    have := mem_range.1 hj
    rw [mk_get, if_neg (by omega), if_neg (by omega), if_pos (by omega)]
    rfl
  have e3 : (((mk c m a b)[c]?).elim 0 fun s => stageCost p c s x v u) = 0 := by
    rw [mk_get, if_neg (lt_irrefl _), if_pos rfl]
    rfl
  rw [e1, e2, e3, add_zero]

/-- time steps: `a` for the first `c` intervals, `b` afterwards -/
def grid (c : Nat) (a b : K) : Nat → K := fun k => if k < c then a else b

theorem cost_split (p : Prob X U K) (c m : Nat) (a b : K) (x : Nat → X) (u : Nat → U) :
    cost p (c + m) (grid c a b) x u = (∑ k ∈ range c, a * if k = 0 then p.l0 (x k) (u k) else p.l (x k) (u k))
      + (∑ j ∈ range m, b * if c + j = 0 then p.l0 (x (c + j)) (u (c + j)) else p.l (x (c + j)) (u (c + j))) + p.lT (x (c + m)) := by
  unfold cost
  rw [sum_range_add]
  congr 1
  congr 1
  · refine sum_congr rfl fun k hk => ?_
    rw [grid, if_pos (mem_range.1 hk)]
  · refine sum_congr rfl fun k hk => ?_
    rw [grid, if_neg (by omega)]

theorem held_v (p : Prob X U K) (c m : Nat) (a b : K) (x : Nat → X) (v u : Nat → U) (h : MFeasible p (mk c m a b) x v u) :
    ∀ j ≤ m, v (c + 1 + j) = u c := by
  rw [mfeas_iff] at h
  intro j
  induction j with
  | zero => intro _; exact h.2.2.1.2.1
  | succ j ih => intro hj; rw [← ih (by omega)]; exact (h.2.2.2.1 j (by omega)).2.1

/-- forward -/
theorem forward (p : Prob X U K) (c m : Nat) (a b : K) (hc : 1 ≤ c ∨ p.C0 = p.C ∧ p.l0 = p.l) (x : Nat → X) (u : Nat → U) (hm : 1 ≤ m)
    (h : Feasible p (c + m) (grid c a b) x u) (hh : ∀ k, c ≤ k → k < c + m → u k = u c) :
    MFeasible p (mk c m a b) (shift c x) (fun _ => u c) u ∧ mcost p (mk c m a b) (shift c x) (fun _ => u c) u = cost p (c + m) (grid c a b) x u := by
  obtain ⟨h0, hd, hB, hC, hT⟩ := h
  have s1 : ∀ k ≤ c, shift c x k = x k := fun k hk => by unfold shift; rw [if_pos hk]
  have s2 : ∀ j, shift c x (c + 1 + j) = x (c + j) := fun j => by
    unfold shift; rw [if_neg (by omega)]; congr 1; omega
  have hCj : ∀ j < m, p.C (x (c + j)) (u c) := by
    intro j hj
    have h1 := hC (c + j) (by omega)
    rw [hh (c + j) (by omega) (by omega)] at h1
    split at h1
    · rename_i h2
      rcases hc with hc | hc
      · omega
      · rw [← hc.1]; exact h1
    · exact h1
  constructor
  · rw [mfeas_iff]
    refine ⟨by rw [s1 0 (by omega)]; exact h0, ?_, ?_, ?_, ?_⟩
    · intro k hk
      rw [s1 (k + 1) (by omega), s1 k (by omega)]
      have := hd k (by omega)
      rw [grid, if_pos hk] at this
      exact ⟨this, hB k (by omega), hC k (by omega)⟩
    · have := s2 0
      rw [Nat.add_zero, Nat.add_zero] at this
      rw [this, s1 c le_rfl]
      exact ⟨rfl, rfl, hB c (by omega)⟩
    · intro j hj
      rw [s2 j, show c + 1 + j + 1 = c + 1 + (j + 1) by omega, s2 (j + 1)]
      refine ⟨?_, rfl, hCj j hj⟩
      rw [← hh (c + j) (by omega) (by omega)]
      have := hd (c + j) (by omega)
      rw [grid, if_neg (by omega)] at this
      exact this
    · rw [show c + m + 1 = c + 1 + m by omega, s2 m]
      exact hT
  · rw [mcost_eq, cost_split, show c + m + 1 = c + 1 + m by omega, s2 m]
    congr 1
    congr 1
    · refine sum_congr rfl fun k hk => ?_
      rw [s1 k (by have := mem_range.1 hk; omega)]
    · refine sum_congr rfl fun j hj => ?_
      have hj := mem_range.1 hj
      rw [s2 j, hh (c + j) (by omega) (by omega)]
      split
      · rename_i h2
        rcases hc with hc | hc
        · omega
        · rw [hc.2]
      · rfl

/-- and back -/
theorem backward (p : Prob X U K) (c m : Nat) (a b : K) (hc : 1 ≤ c ∨ p.C0 = p.C ∧ p.l0 = p.l) (x : Nat → X) (v u : Nat → U)
    (h : MFeasible p (mk c m a b) x v u) :
    Feasible p (c + m) (grid c a b) (unshift c x) (fun k => u (min k c))
      ∧ cost p (c + m) (grid c a b) (unshift c x) (fun k => u (min k c)) = mcost p (mk c m a b) x v u := by
  have hv := held_v p c m a b x v u h
  rw [mfeas_iff] at h
  obtain ⟨h0, h1, ⟨h2, h3, h4⟩, h5, h6⟩ := h
  have s1 : ∀ k ≤ c, unshift c x k = x k := fun k hk => by
    unfold unshift
    split
    · rfl
    · rw [show k = c by omega, h2]
  have s2 : ∀ j, unshift c x (c + j) = x (c + 1 + j) := fun j => by
    unfold unshift; rw [if_neg (by omega)]; congr 1; omega
  have hk2 : ∀ k, ¬ k < c → ∃ j, k = c + j := fun k hk => ⟨k - c, by omega⟩
  constructor
  · refine ⟨by rw [s1 0 (by omega)]; exact h0, ?_, ?_, ?_, ?_⟩
    · intro k hk
      dsimp only
      by_cases hkc : k < c
      · rw [s1 (k + 1) (by omega), s1 k (by omega), min_eq_left (by omega), grid, if_pos hkc]
        exact (h1 k hkc).1
      · obtain ⟨j, rfl⟩ := hk2 k hkc
        rw [show c + j + 1 = c + (j + 1) by omega, s2, s2, min_eq_right (by omega), ← hv j (by omega), grid, if_neg (by omega)]
        exact (h5 j (by omega)).1
    · intro k hk
      dsimp only
      by_cases hkc : k < c
      · rw [min_eq_left (by omega)]
        exact (h1 k hkc).2.1
      · rw [min_eq_right (by omega)]
        exact h4
    · intro k hk
      dsimp only
      by_cases hkc : k < c
      · rw [s1 k (by omega), min_eq_left (by omega)]
        exact (h1 k hkc).2.2
      · obtain ⟨j, rfl⟩ := hk2 k hkc
        have := (h5 j (by omega)).2.2
        rw [hv j (by omega)] at this
        rw [s2, min_eq_right (by omega)]
        split
        · rcases hc with hc | hc
          · omega
          · rw [hc.1]; exact this
        · exact this
    · rw [s2, show c + 1 + m = c + m + 1 by omega]
      exact h6
  · rw [mcost_eq, cost_split, s2 m, show c + 1 + m = c + m + 1 by omega]
    congr 1
    congr 1
    · refine sum_congr rfl fun k hk => ?_
      have hk := mem_range.1 hk
      rw [s1 k (by omega), min_eq_left (by omega)]
    · refine sum_congr rfl fun j hj => ?_
      have hj := mem_range.1 hj
      rw [s2 j, hv j (by omega), min_eq_right (by omega)]
      split
      · rcases hc with hc | hc
        · omega
        · rw [hc.2]
      · rfl

theorem ratio (Ts : K) (Np Nc : Nat) (h2 : Nc < Np) : Ts * ((Np : K) - (Nc : K)) / ((Np - Nc : Nat) : K) = Ts := by
  rw [Nat.cast_sub h2.le]
  have : ((Np : K) - (Nc : K)) ≠ 0 := by
    have : ((Nc : Nat) : K) < (Np : K) := by exact_mod_cast h2
    intro h
    linarith
  field_simp

theorem stages_sum (Ts : K) (Np Nc Nr : Nat) :
    ((stages Ts Np Nc Nr).map (·.2)).sum = ((Nc - 1 : Nat) : K) * Ts + ((Nr : K) + 1) * (Ts * ((Np : K) - (Nc : K)) / (Nr : K)) := by
  unfold stages
  simp

end Acados.ControlHorizon
