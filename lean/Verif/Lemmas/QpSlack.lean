import Verif.Model.QpSlack
import Mathlib.Algebra.BigOperators.Intervals
import Mathlib.Algebra.Order.Ring.Rat
import Mathlib.Algebra.Order.Group.Abs
import Mathlib.Tactic.Ring
import Mathlib.Tactic.Linarith
/-! Lemmas for C93. -/
namespace Acados.QpSlack
open Finset
variable {K : Type} [Field K] [LinearOrder K] [IsStrictOrderedRing K]

omit [LinearOrder K] [IsStrictOrderedRing K] in
theorem wr_in (t : Nat → K) (off n : Nat) (v : Nat → K) (i : Nat) (h : i < n) : wr t off n v (off + i) = v i := by
  unfold wr
  rw [if_pos (by omega), Nat.add_sub_cancel_left]

omit [LinearOrder K] [IsStrictOrderedRing K] in
theorem wr_out (t : Nat → K) (off n : Nat) (v : Nat → K) (q : Nat) (h : ¬ (off ≤ q ∧ q < off + n)) : wr t off n v q = t q := by
  unfold wr
  rw [if_neg h]

omit [LinearOrder K] [IsStrictOrderedRing K] in
/-- the loop over softened constraints -/
theorem soft_loop (s : Stage K) (v t : Nat → K) (n : Nat) (hn : n ≤ s.nb + s.ng) (q : Nat) :
    ((List.range n).foldl (softStep s v) t) q
      = if q < n then t q + s.sl v q else if s.nb + s.ng ≤ q ∧ q < s.nb + s.ng + n then t q + s.su v (q - (s.nb + s.ng)) else t q := by
  induction n generalizing q with
  | zero => rw [List.range_zero, List.foldl_nil, if_neg (by omega), if_neg (by omega)]
  | succ n ih =>
    have ih := ih (by omega)
    rw [List.range_succ, List.foldl_append, List.foldl_cons, List.foldl_nil]
    generalize (List.range n).foldl (softStep s v) t = T at ih
    unfold softStep
    rcases hr : s.rev n with _ | k
    · dsimp only
      rw [ih q]
      have e1 : s.sl v n = 0 := by unfold Stage.sl; rw [hr]; rfl
      have e2 : s.su v n = 0 := by unfold Stage.su; rw [hr]; rfl
      by_cases h1 : q = n
      · subst h1
        rw [if_neg (by omega), if_neg (by omega), if_pos (by omega), e1, add_zero]
      · by_cases h2 : q = s.nb + s.ng + n
        · subst h2
          rw [if_neg (by omega), if_neg (by omega), if_neg (by omega), if_pos (by omega), Nat.add_sub_cancel_left, e2, add_zero]
        · by_cases h3 : q < n
          · rw [if_pos h3, if_pos (by omega)]
          · rw [if_neg h3, if_neg (show ¬ q < n + 1 by omega)]
            by_cases h4 : s.nb + s.ng ≤ q ∧ q < s.nb + s.ng + n
            · rw [if_pos h4, if_pos (by omega)]
            · rw [if_neg h4, if_neg (by omega)]
    · dsimp only
      have e1 : s.sl v n = v (s.nv + k) := by unfold Stage.sl; rw [hr]; rfl
      have e2 : s.su v n = v (s.nv + s.ns + k) := by unfold Stage.su; rw [hr]; rfl
      have hA : wr T n 1 (fun _ => T n + v (s.nv + k)) (s.nb + s.ng + n) = t (s.nb + s.ng + n) := by
        rw [wr_out _ _ _ _ _ (by omega), ih, if_neg (by omega), if_neg (by omega)]
      rw [hA]
      by_cases h2 : q = s.nb + s.ng + n
      · subst h2
        have := wr_in (wr T n 1 (fun _ => T n + v (s.nv + k))) (s.nb + s.ng + n) 1 (fun _ => t (s.nb + s.ng + n) + v (s.nv + s.ns + k)) 0 (by omega)
        rw [Nat.add_zero] at this
        rw [this, if_neg (by omega), if_pos (by omega), Nat.add_sub_cancel_left, e2]
      · rw [wr_out _ _ _ _ _ (by omega)]
        by_cases h1 : q = n
        · subst h1
          have := wr_in T q 1 (fun _ => T q + v (s.nv + k)) 0 (by omega)
          rw [Nat.add_zero] at this
          rw [this, ih, if_neg (by omega), if_neg (by omega), if_pos (by omega), e1]
        · rw [wr_out _ _ _ _ _ (by omega), ih q]
          by_cases h3 : q < n
          · rw [if_pos h3, if_pos (by omega)]
          · rw [if_neg h3, if_neg (show ¬ q < n + 1 by omega)]
            by_cases h4 : s.nb + s.ng ≤ q ∧ q < s.nb + s.ng + n
            · rw [if_pos h4, if_pos (by omega)]
            · rw [if_neg h4, if_neg (by omega)]

omit [LinearOrder K] [IsStrictOrderedRing K] in
theorem hardSoft_eq (s : Stage K) (v t : Nat → K) (q : Nat) :
    hardSoft s v t q = if q < s.nb + s.ng then s.val v q - s.d q + s.sl v q
      else if q < 2 * s.nb + 2 * s.ng then -s.val v (q - (s.nb + s.ng)) - s.d q + s.su v (q - (s.nb + s.ng)) else t q := by
  unfold hardSoft
  rw [soft_loop s v _ _ le_rfl]
  by_cases h1 : q < s.nb + s.ng
  · rw [if_pos h1, if_pos h1]
    congr 1
    unfold Stage.val
    by_cases h2 : q < s.nb
    · rw [if_pos h2, wr_out _ _ _ _ _ (by omega), wr_out _ _ _ _ _ (by omega), wr_out _ _ _ _ _ (by omega)]
      have := wr_in (wr t (s.nb + s.ng) s.nb (fun i => v (s.idxb i))) 0 s.nb
        (fun i => wr t (s.nb + s.ng) s.nb (fun i => v (s.idxb i)) (s.nb + s.ng + i) - s.d i) q h2
      rw [Nat.zero_add] at this
      rw [this, wr_in _ _ _ _ _ h2]
    · rw [if_neg h2, wr_out _ _ _ _ _ (by omega)]
      obtain ⟨j, rfl⟩ : ∃ j, q = s.nb + j := ⟨q - s.nb, by omega⟩
      rw [wr_in _ _ _ _ _ (by omega), Nat.add_sub_cancel_left]
  · rw [if_neg h1, if_neg h1]
    by_cases h3 : q < 2 * s.nb + 2 * s.ng
    · rw [if_pos (by omega), if_pos h3]
      congr 1
      unfold Stage.val
      obtain ⟨j, rfl⟩ : ∃ j, q = s.nb + s.ng + j := ⟨q - (s.nb + s.ng), by omega⟩
      rw [Nat.add_sub_cancel_left]
      by_cases h2 : j < s.nb
      · rw [if_pos h2, wr_out _ _ _ _ _ (by omega), wr_out _ _ _ _ _ (by omega), wr_in _ _ _ _ _ h2, wr_out _ _ _ _ _ (by omega), wr_in _ _ _ _ _ h2]
      · rw [if_neg h2]
        obtain ⟨i, rfl⟩ : ∃ i, j = s.nb + i := ⟨j - s.nb, by omega⟩
        rw [show s.nb + s.ng + (s.nb + i) = 2 * s.nb + s.ng + i by omega, wr_in _ _ _ _ _ (by omega), Nat.add_sub_cancel_left]
    · rw [if_neg (by omega), if_neg h3, wr_out _ _ _ _ _ (by omega), wr_out _ _ _ _ _ (by omega), wr_out _ _ _ _ _ (by omega),
        wr_out _ _ _ _ _ (by omega), wr_out _ _ _ _ _ (by omega)]

omit [LinearOrder K] [IsStrictOrderedRing K] in
theorem computeT_eq (s : Stage K) (v t : Nat → K) (q : Nat) :
    computeT s v t q = if q < s.nb + s.ng then s.val v q - s.d q + s.sl v q
      else if q < 2 * s.nb + 2 * s.ng then -s.val v (q - (s.nb + s.ng)) - s.d q + s.su v (q - (s.nb + s.ng))
      else if q < 2 * s.nb + 2 * s.ng + 2 * s.ns then v (s.nv + (q - (2 * s.nb + 2 * s.ng))) - s.d q else t q := by
  unfold computeT
  by_cases h : 2 * s.nb + 2 * s.ng ≤ q ∧ q < 2 * s.nb + 2 * s.ng + 2 * s.ns
  · obtain ⟨j, rfl⟩ : ∃ j, q = 2 * s.nb + 2 * s.ng + j := ⟨q - (2 * s.nb + 2 * s.ng), by omega⟩
    rw [wr_in _ _ _ _ _ (by omega), if_neg (by omega), if_neg (by omega), if_pos (by omega), Nat.add_sub_cancel_left]
  · rw [wr_out _ _ _ _ _ h, hardSoft_eq]
    by_cases h1 : q < s.nb + s.ng
    · rw [if_pos h1, if_pos h1]
    · rw [if_neg h1, if_neg h1]
      by_cases h2 : q < 2 * s.nb + 2 * s.ng
      · rw [if_pos h2, if_pos h2]
      · rw [if_neg h2, if_neg h2, if_neg (by omega)]

omit [LinearOrder K] [IsStrictOrderedRing K] in
theorem dense_eq (s : Stage K) (v t : Nat → K) : denseComputeT s v t = computeT s v t := by
  funext q
  unfold denseComputeT computeT
  by_cases h : 2 * s.nb + 2 * s.ng ≤ q ∧ q < 2 * s.nb + 2 * s.ng + 2 * s.ns
  · obtain ⟨j, rfl⟩ : ∃ j, q = 2 * s.nb + 2 * s.ng + j := ⟨q - (2 * s.nb + 2 * s.ng), by omega⟩
    rw [wr_in _ _ _ _ _ (by omega), wr_in _ _ _ _ _ (by omega), wr_in _ _ _ _ _ (by omega)]
  · rw [wr_out _ _ _ _ _ h, wr_out _ _ _ _ _ h, wr_out _ _ _ _ _ h]

omit [IsStrictOrderedRing K] in
theorem foldl_max_le (x : Nat → K) (n : Nat) (a e : K) :
    (List.range n).foldl (fun a i => max a |x i|) a ≤ e ↔ a ≤ e ∧ ∀ i < n, |x i| ≤ e := by
  induction n with
  | zero => simp
  | succ n ih =>
    rw [List.range_succ, List.foldl_append, List.foldl_cons, List.foldl_nil, max_le_iff, ih]
    constructor
    · rintro ⟨⟨h1, h2⟩, h3⟩
      refine ⟨h1, fun i hi => ?_⟩
      rcases Nat.lt_succ_iff_lt_or_eq.1 hi with h | rfl
      · exact h2 i h
      · exact h3
    · rintro ⟨h1, h2⟩
      exact ⟨⟨h1, fun i hi => h2 i (by omega)⟩, h2 n (by omega)⟩

omit [IsStrictOrderedRing K] in
theorem nrm_le (n : Nat) (x : Nat → K) (e : K) (he : 0 ≤ e) : nrmInf n x ≤ e ↔ ∀ i < n, |x i| ≤ e := by
  unfold nrmInf
  rw [foldl_max_le]
  exact ⟨fun h => h.2, fun h => ⟨he, h⟩⟩

theorem start_succ (size : Nat → Nat) (k : Nat) : start size (k + 1) = start size k + size k := sum_range_succ _ _

theorem forall_start (size : Nat → Nat) (n : Nat) (Q : Nat → Prop) :
    (∀ i < start size n, Q i) ↔ ∀ k < n, ∀ j < size k, Q (start size k + j) := by
  induction n with
  | zero => simp [start]
  | succ n ih =>
    rw [start_succ]
    constructor
    · intro h k hk j hj
      rcases Nat.lt_succ_iff_lt_or_eq.1 hk with h1 | rfl
      · exact ih.1 (fun i hi => h i (by omega)) k h1 j hj
      · exact h _ (by omega)
    · intro h i hi
      by_cases h1 : i < start size n
      · exact ih.2 (fun k hk => h k (by omega)) i h1
      · have := h n (by omega) (i - start size n) (by omega)
        rw [show start size n + (i - start size n) = i by omega] at this
        exact this

theorem lengths_eq (d : Dims) :
    lengths d = (start (fun k => d.nx k + d.nu k + 2 * d.ns k) (d.N + 1), start (fun k => d.nx (k + 1)) d.N,
      start (fun k => 2 * d.nb k + 2 * d.ng k + 2 * d.ns k) (d.N + 1)) := by
  have h : ∀ n, (List.range n).foldl (fun (a : Nat × Nat × Nat) ii =>
      (a.1 + (d.nx ii + d.nu ii + 2 * d.ns ii), a.2.1 + d.nx (ii + 1), a.2.2 + (2 * d.nb ii + 2 * d.ng ii + 2 * d.ns ii))) (0, 0, 0)
      = (start (fun k => d.nx k + d.nu k + 2 * d.ns k) n, start (fun k => d.nx (k + 1)) n, start (fun k => 2 * d.nb k + 2 * d.ng k + 2 * d.ns k) n) := by
    intro n
    induction n with
    | zero => rfl
    | succ n ih => rw [List.range_succ, List.foldl_append, ih, List.foldl_cons, List.foldl_nil, start_succ, start_succ, start_succ]
  unfold lengths
  dsimp only
  rw [h, start_succ, start_succ]

end Acados.QpSlack
