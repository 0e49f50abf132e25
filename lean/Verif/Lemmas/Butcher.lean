import Verif.Model.Butcher
import Verif.Lemmas.LinSolve
import Mathlib.LinearAlgebra.Matrix.ToLinearEquiv
import Mathlib.LinearAlgebra.Matrix.NonsingularInverse
/-!
# The small linear solver of the collocation utilities
-/
set_option linter.unusedSectionVars false
namespace Acados.Butcher
open Finset
variable {K : Type*} [Field K] [LinearOrder K] [IsStrictOrderedRing K]

theorem pivot_aux (x : Nat → K) (i k : Nat) :
    let r := (List.range' (i + 1) k).foldl (fun (s : K × Nat) j => if |x j| > s.1 then (|x j|, j) else s) (|x i|, i)
    r.1 = |x r.2| ∧ i ≤ r.2 ∧ r.2 ≤ i + k ∧ ∀ j, i ≤ j → j ≤ i + k → |x j| ≤ r.1 := by
  induction k with
  | zero =>
    refine ⟨rfl, le_refl _, le_refl _, fun j h1 h2 => ?_⟩
    obtain rfl : j = i := by omega
    exact le_refl _
  | succ k ih =>
    rw [List.range'_concat, List.foldl_append]
    simp only [List.foldl_cons, List.foldl_nil] at ih ⊢
    obtain ⟨h1, h2, h3, h4⟩ := ih
    generalize List.foldl _ _ (List.range' (i + 1) k) = r at h1 h2 h3 h4
    rw [show i + 1 + 1 * k = i + (k + 1) by omega]
    split
    · next h =>
      refine ⟨rfl, by simp only; omega, le_refl _, fun j hj1 hj2 => ?_⟩
      rcases Nat.lt_or_ge j (i + (k + 1)) with h' | h'
      · exact (h4 j hj1 (by omega)).trans h.le
      · rw [le_antisymm hj2 h']
    · next h =>
      refine ⟨h1, h2, by omega, fun j hj1 hj2 => ?_⟩
      rcases Nat.lt_or_ge j (i + (k + 1)) with h' | h'
      · exact h4 j hj1 (by omega)
      · rw [le_antisymm hj2 h']; exact not_lt.1 h

theorem pivot_spec (n j : Nat) (hj : j < n) (A : Nat → Nat → K) :
    j ≤ pivot n j A ∧ pivot n j A < n ∧ ∀ i, j ≤ i → i < n → |A i j| ≤ |A (pivot n j A) j| := by
  obtain ⟨h1, h2, h3, h4⟩ := pivot_aux (fun i => A i j) j (n - (j + 1))
  unfold pivot
  refine ⟨h2, by omega, fun i hi hin => ?_⟩
  exact (h4 i hi (by omega)).trans (le_of_eq h1)

/-- relation to the factorisation of `Model/LinSolve.lean`: the multipliers are stored with opposite sign -/
def Rel (A0 : Nat → Nat → K) (n j : Nat) (t : LuP K) (s : Math.Lu K) : Prop :=
  Math.LuInv A0 n j s ∧ (∀ i < n, t.perm i = Math.permOf s.ipiv j i) ∧
    ∀ i < n, ∀ k < n, t.A i k = if k < i ∧ k < j then - s.A i k else s.A i k

theorem exchange_A (n i m : Nat) (him : i ≤ m) (t : LuP K) (r k : Nat) (hk : k < n) :
    (exchange n i m t).A r k = t.A (Equiv.swap i m r) k := by
  unfold exchange
  rw [Equiv.swap_apply_def]
  split
  · simp only [if_pos hk]
    split
    · rfl
    · split <;> rfl
  · obtain rfl : m = i := by omega
    split
    · next h => rw [h]
    · rfl

theorem exchange_perm (n i m : Nat) (him : i ≤ m) (t : LuP K) (r : Nat) :
    (exchange n i m t).perm r = t.perm (Equiv.swap i m r) := by
  unfold exchange
  rw [Equiv.swap_apply_def]
  split
  · simp only
    by_cases h1 : r = m
    · subst h1
      rw [Function.update_self, if_neg (by omega), if_pos rfl]
    · rw [Function.update_of_ne h1]
      by_cases h2 : r = i
      · subst h2; rw [Function.update_self, if_pos rfl]
      · rw [Function.update_of_ne h2, if_neg h2, if_neg h1]
  · obtain rfl : m = i := by omega
    split
    · next h => rw [h]
    · rfl

theorem luStep_rel (A0 : Nat → Nat → K) (n j : Nat) (hj : j < n) (t : LuP K) (s : Math.Lu K)
    (h : Rel A0 n j t s) (hp : t.A (pivot n j t.A) j ≠ 0) : ∃ s', Rel A0 n (j + 1) (luStep n t j) s' := by
  obtain ⟨hp1, hp2, _⟩ := pivot_spec n j hj t.A
  obtain ⟨hinv, hperm, hA⟩ := h
  unfold luStep
  generalize pivot n j t.A = p at hp hp1 hp2 ⊢
  have hsp : s.A p j ≠ 0 := by
    rw [hA p hp2 j hj, if_neg (by omega)] at hp; exact hp
  refine ⟨_, Math.luElim_inv 0 A0 n j p hj s hinv hp1 hp2 hsp 0, fun i hi => ?_, fun i hi k hk => ?_⟩
  · have hsw : Equiv.swap j p i < n := by
      rw [Equiv.swap_apply_def]
      split
      · exact hp2
      · split <;> omega
    simp only
    rw [Math.permOf, Function.update_self,
      Math.permOf_congr _ s.ipiv j (fun i hi => Function.update_of_ne (by omega) _ _), Equiv.Perm.mul_apply,
      ← hperm _ hsw]
    exact exchange_perm n j p hp1 t i
  · -- entries after the exchange
    have hswn : ∀ i, i < n → Equiv.swap j p i < n := by
      intro i hi
      rw [Equiv.swap_apply_def]
      split
      · exact hp2
      · split <;> omega
    have hc : ∀ i k, (k < Equiv.swap j p i ∧ k < j) ↔ (k < i ∧ k < j) := by
      intro i k
      rw [Equiv.swap_apply_def]
      split
      · omega
      · split <;> omega
    have h1 : ∀ i < n, ∀ k < n, (exchange n j p t).A i k
        = if k < i ∧ k < j then - s.A (Equiv.swap j p i) k else s.A (Equiv.swap j p i) k := by
      intro i hi k hk
      rw [exchange_A n j p hp1 t i k hk, hA _ (hswn i hi) k hk]
      by_cases hh : k < i ∧ k < j
      · rw [if_pos hh, if_pos ((hc i k).2 hh)]
      · rw [if_neg hh, if_neg (fun h => hh ((hc i k).1 h))]
    simp only
    have hsc := fun i hi k hk => Math.luScale_eq 0 n j p hj s.A i k hi hk
    unfold Math.luTrail eliminate
    rcases Nat.lt_or_ge j i with hji | hji
    · rw [if_pos ⟨hji, hi⟩]
      rcases lt_trichotomy k j with hkj | hkj | hkj
      · rw [if_neg (by omega), if_neg (by omega), h1 i hi k hk, if_pos ⟨by omega, hkj⟩,
          if_pos ⟨by omega, by omega⟩, if_neg (by omega), hsc i hi k hk, if_neg (by omega)]
      · subst hkj
        rw [if_pos rfl, if_pos ⟨hji, by omega⟩, if_neg (by omega), h1 i hi k hk, if_neg (by omega),
          h1 k hk k hk, if_neg (by omega), hsc i hi k hk, if_pos ⟨rfl, hji⟩, Equiv.swap_apply_left]
        ring
      · rw [if_neg (by omega), if_pos ⟨hkj, hk⟩, if_neg (by omega), if_pos ⟨hji, hi, hkj, hk⟩,
          h1 i hi k hk, if_neg (by omega), h1 i hi j hj, if_neg (by omega), h1 j hj j hj, if_neg (by omega),
          h1 j hj k hk, if_neg (by omega), hsc i hi k hk, if_neg (by omega), hsc i hi j hj, if_pos ⟨rfl, hji⟩,
          hsc j hj k hk, if_neg (by omega), Equiv.swap_apply_left]
        ring
    · rw [if_neg (by omega), if_neg (show ¬ (j < i ∧ i < n ∧ j < k ∧ k < n) by omega), h1 i hi k hk,
        hsc i hi k hk, if_neg (show ¬ (k = j ∧ j < i) by omega)]
      by_cases hh : k < i ∧ k < j
      · rw [if_pos hh, if_pos ⟨hh.1, by omega⟩]
      · rw [if_neg hh, if_neg (by omega)]

/-- no vector is mapped to zero -/
def Nonsingular (A : Nat → Nat → K) (n : Nat) : Prop :=
  ∀ v : Nat → K, (∀ i < n, ∑ k ∈ range n, A i k * v k = 0) → ∀ k < n, v k = 0

theorem pivot_ne (A0 : Nat → Nat → K) (n j : Nat) (hj : j < n) (hA0 : Nonsingular A0 n) (t : LuP K)
    (s : Math.Lu K) (h : Rel A0 n j t s) : t.A (pivot n j t.A) j ≠ 0 := by
  intro h0
  obtain ⟨_, _, hmax⟩ := pivot_spec n j hj t.A
  obtain ⟨v, ⟨k, hk, hvk⟩, hv⟩ := Math.lu_singular A0 n j hj s h.1 (fun i h1 h2 => by
    have := hmax i h1 h2
    rw [h0, abs_zero] at this
    have h3 := abs_nonpos_iff.1 this
    rw [h.2.2 i h2 j hj, if_neg (by omega)] at h3
    exact h3)
  exact hvk (hA0 v hv k hk)

theorem factor_rel (A0 : Nat → Nat → K) (n : Nat) (hA0 : Nonsingular A0 n) (m : Nat) (hm : m ≤ n) :
    ∃ s, Rel A0 n m ((List.range m).foldl (luStep n) ⟨A0, fun i => i⟩) s := by
  induction m with
  | zero =>
    refine ⟨⟨A0, fun _ => 0, 0⟩, Math.lu_start A0 n _ 0, fun i _ => rfl, fun i _ k _ => ?_⟩
    rw [if_neg (by omega)]; rfl
  | succ m ih =>
    obtain ⟨s, hs⟩ := ih (by omega)
    simp only [List.range_succ, List.foldl_append, List.foldl_cons, List.foldl_nil]
    exact luStep_rel A0 n m (by omega) _ s hs (pivot_ne A0 n m (by omega) hA0 _ s hs)

/-- the last step of a full factorisation changes nothing -/
theorem last_step (n : Nat) (t : LuP K) (i k : Nat) (hi : i < n) (hk : k < n) :
    (luStep n t (n - 1)).A i k = t.A i k ∧ (luStep n t (n - 1)).perm i = t.perm i := by
  have hp : pivot n (n - 1) t.A = n - 1 := by
    obtain ⟨h1, h2, _⟩ := pivot_spec n (n - 1) (by omega) t.A
    omega
  have he : exchange n (n - 1) (n - 1) t = t := by unfold exchange; rw [if_neg (by omega)]
  unfold luStep
  simp only [hp, he]
  refine ⟨?_, trivial⟩
  unfold eliminate
  rw [if_neg (by omega)]

theorem luFactor_rel (A0 : Nat → Nat → K) (n : Nat) (hA0 : Nonsingular A0 n) : ∃ s, Rel A0 n n (luFactor n A0) s := by
  rcases Nat.eq_zero_or_pos n with h0 | h0
  · subst h0
    exact factor_rel A0 0 hA0 0 (le_refl _)
  · obtain ⟨s, h1, h2, h3⟩ := factor_rel A0 n hA0 n (le_refl _)
    have e : (List.range n).foldl (luStep n) ⟨A0, fun i => i⟩ = luStep n (luFactor n A0) (n - 1) := by
      obtain ⟨m, rfl⟩ : ∃ m, n = m + 1 := ⟨n - 1, by omega⟩
      simp only [List.range_succ, List.foldl_append, List.foldl_cons, List.foldl_nil, luFactor,
        Nat.add_sub_cancel]
    rw [e] at h2 h3
    refine ⟨s, h1, fun i hi => ?_, fun i hi k hk => ?_⟩
    · rw [← h2 i hi]; exact (last_step n _ i i hi hi).2.symm
    · rw [← h3 i hi k hk]; exact (last_step n _ i k hi hk).1.symm

theorem forward_spec (A B : Nat → Nat → K) (c m : Nat) :
    let Y := (List.range' 1 m).foldl (forwardStep A) B
    (∀ r ≤ m, Y r c = B r c + ∑ i ∈ range r, A r i * Y i c) ∧ ∀ r, m < r → Y r c = B r c := by
  induction m with
  | zero =>
    refine ⟨fun r hr => ?_, fun r _ => rfl⟩
    obtain rfl : r = 0 := by omega
    simp
  | succ m ih =>
    rw [List.range'_concat, List.foldl_append]
    simp only [List.foldl_cons, List.foldl_nil] at ih ⊢
    obtain ⟨h1, h2⟩ := ih
    generalize (List.range' 1 m).foldl (forwardStep A) B = Y at h1 h2
    rw [show 1 + 1 * m = m + 1 by omega]
    have hne : ∀ r, r ≠ m + 1 → forwardStep A Y (m + 1) r c = Y r c := by
      intro r hr; unfold forwardStep; rw [if_neg hr]
    refine ⟨fun r hr => ?_, fun r hr => ?_⟩
    · have hsum : ∑ i ∈ range r, A r i * forwardStep A Y (m + 1) i c = ∑ i ∈ range r, A r i * Y i c :=
        sum_congr rfl fun i hi => by rw [hne i (by have := mem_range.1 hi; omega)]
      rw [hsum]
      by_cases e : r = m + 1
      · subst e
        rw [← h2 (m + 1) (by omega)]
        unfold forwardStep
        rw [if_pos rfl]
      · rw [hne r e]; exact h1 r (by omega)
    · rw [hne r (by omega)]; exact h2 r (by omega)

theorem backward_spec (n : Nat) (A B : Nat → Nat → K) (hA : ∀ k < n, A k k ≠ 0) (c m : Nat) (hm : m ≤ n)
    (C : Nat → Nat → K) (hC : ∀ i, m ≤ i → i < n → ∑ l ∈ Ico i n, A i l * C l c = B i c)
    (hC' : ∀ i < m, C i c = B i c) :
    ∀ i < n, ∑ l ∈ Ico i n, A i l * (List.range m).reverse.foldl (backwardStep n A) C l c = B i c := by
  induction m generalizing C with
  | zero => intro i hi; exact hC i (by omega) hi
  | succ m ih =>
    rw [List.range_succ, List.reverse_append, List.reverse_cons, List.reverse_nil, List.nil_append,
      List.singleton_append, List.foldl_cons]
    have hne : ∀ r, r ≠ m → backwardStep n A C m r c = C r c := by
      intro r hr; unfold backwardStep; rw [if_neg hr]
    refine ih (by omega) _ (fun i h1 h2 => ?_) (fun i hi => ?_)
    · rcases Nat.lt_or_ge m i with h | h
      · rw [← hC i h h2]
        exact sum_congr rfl fun l hl => by rw [hne l (by have := mem_Ico.1 hl; omega)]
      · obtain rfl : i = m := by omega
        rw [sum_eq_sum_Ico_succ_bot h2]
        have hsum : ∑ l ∈ Ico (i + 1) n, A i l * backwardStep n A C i l c = ∑ l ∈ Ico (i + 1) n, A i l * C l c :=
          sum_congr rfl fun l hl => by rw [hne l (by have := mem_Ico.1 hl; omega)]
        rw [hsum]
        have e : backwardStep n A C i i c = 1 / A i i * (C i c - ∑ j ∈ Ico (i + 1) n, A i j * C j c) := by
          unfold backwardStep; rw [if_pos rfl]
        rw [e, ← mul_assoc, mul_one_div_cancel (hA i h2), one_mul, sub_add_cancel]
        exact hC' i (by omega)
    · rw [hne i (by omega)]; exact hC' i (by omega)

theorem luSolve_solves (n : Nat) (A B : Nat → Nat → K) (hA : Nonsingular A n) (c i : Nat) (hi : i < n) :
    ∑ k ∈ range n, A i k * luSolve n A B k c = B i c := by
  obtain ⟨s, hinv, hperm, hrel⟩ := luFactor_rel A n hA
  unfold luSolve
  generalize luFactor n A = f at hperm hrel
  obtain ⟨hf, hf'⟩ := forward_spec f.A (fun r k => B (f.perm r) k) c (n - 1)
  generalize (List.range' 1 (n - 1)).foldl (forwardStep f.A) (fun r k => B (f.perm r) k) = Y at hf hf'
  have hdiag : ∀ k < n, f.A k k ≠ 0 := by
    intro k hk
    rw [hrel k hk k hk, if_neg (by omega)]
    exact hinv.piv k hk
  have hb := backward_spec n f.A Y hdiag c n (le_refl _) Y (fun i h1 h2 => absurd h2 (by omega)) (fun _ _ => rfl)
  generalize (List.range n).reverse.foldl (backwardStep n f.A) Y = X at hb
  refine Math.lu_solves A n s hinv (fun i => B i c) (fun i => Y i c) (fun i => X i c) (fun i hi => ?_)
    (fun i hi => ?_) i hi
  · rw [hf i (by omega), hperm i hi, add_assoc, ← sum_add_distrib, sum_eq_zero, add_zero]
    intro l hl
    have hl' := mem_range.1 hl
    rw [hrel i hi l (by omega), if_pos ⟨hl', by omega⟩]
    ring
  · rw [← hb i hi]
    refine sum_congr rfl fun l hl => ?_
    have hl' := mem_Ico.1 hl
    rw [hrel i hi l hl'.2, if_neg (by omega)]

end Acados.Butcher
