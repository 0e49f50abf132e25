import Verif.Model.LinSolve
import Mathlib.Logic.Equiv.Basic
import Mathlib.Algebra.BigOperators.Ring.Finset
import Mathlib.Algebra.BigOperators.Intervals
import Mathlib.Algebra.Group.End
import Mathlib.Tactic.LinearCombination
import Mathlib.Tactic.Ring
/-!
# Lemmas on the LU factorisation
-/
namespace Acados.Math
open Finset
variable {K : Type*} [Field K] [LinearOrder K] [IsStrictOrderedRing K]

theorem absif (x : K) : (if x > 0 then x else -x) = |x| := by
  split
  · next h => exact (abs_of_pos h).symm
  · next h => exact (abs_of_nonpos (not_lt.1 h)).symm

theorem idamax_aux (x : Nat → K) (k : Nat) :
    let r := (List.range' 1 k).foldl (fun (s : K × Nat) jj =>
      let dabs := if x jj > 0 then x jj else - x jj
      if dabs > s.1 then (dabs, jj) else s) ((if x 0 > 0 then x 0 else - x 0), 0)
    r.1 = |x r.2| ∧ r.2 ≤ k ∧ ∀ i ≤ k, |x i| ≤ r.1 := by
  induction k with
  | zero => simp [absif]
  | succ k ih =>
    rw [List.range'_concat, List.foldl_append]
    simp only [List.foldl_cons, List.foldl_nil, absif] at ih ⊢
    obtain ⟨h1, h2, h3⟩ := ih
    generalize List.foldl _ _ (List.range' 1 k) = r at h1 h2 h3
    have e : 1 + 1 * k = k + 1 := by omega
    rw [e]
    split
    · next h =>
      refine ⟨rfl, le_rfl, fun i hi => ?_⟩
      rcases Nat.lt_or_ge i (k + 1) with h' | h'
      · exact (h3 i (by omega)).trans h.le
      · rw [le_antisymm hi h']
    · next h =>
      refine ⟨h1, by omega, fun i hi => ?_⟩
      rcases Nat.lt_or_ge i (k + 1) with h' | h'
      · exact h3 i (by omega)
      · rw [le_antisymm hi h']; exact not_lt.1 h

theorem idamax_spec (n : Nat) (hn : 0 < n) (x : Nat → K) :
    idamax n x < n ∧ ∀ i < n, |x i| ≤ |x (idamax n x)| := by
  unfold idamax
  split
  · next h =>
    refine ⟨hn, fun i hi => ?_⟩
    have : i = 0 := by omega
    rw [this]
  · next h =>
    obtain ⟨h1, h2, h3⟩ := idamax_aux x (n - 1)
    exact ⟨by omega, fun i hi => (h3 i (by omega)).trans (le_of_eq h1)⟩

/-- the permutation that exchanges `i` and `ipiv i` for `i = 0, …, j-1` in this order -/
def permOf (ipiv : Nat → Nat) : Nat → Equiv.Perm Nat
  | 0 => 1
  | j + 1 => permOf ipiv j * Equiv.swap j (ipiv j)

theorem permOf_congr (p q : Nat → Nat) (j : Nat) (h : ∀ i < j, p i = q i) : permOf p j = permOf q j := by
  induction j with
  | zero => rfl
  | succ j ih => rw [permOf, permOf, ih fun i hi => h i (by omega), h j (by omega)]

theorem permOf_lt (p : Nat → Nat) (n j : Nat) (hj : j ≤ n) (h : ∀ i < j, p i < n) (i : Nat) :
    permOf p j i < n ↔ i < n := by
  induction j generalizing i with
  | zero => rfl
  | succ j ih =>
    rw [permOf, Equiv.Perm.mul_apply, ih (by omega) (fun i hi => h i (by omega))]
    have hp := h j (by omega)
    rw [Equiv.swap_apply_def]
    split
    · next e => subst e; omega
    · split
      · next e => subst e; omega
      · rfl

/-- loop invariant of the factorisation -/
structure LuInv (A0 : Nat → Nat → K) (n j : Nat) (s : Lu K) : Prop where
  ipiv : ∀ k < j, k ≤ s.ipiv k ∧ s.ipiv k < n
  fac : ∀ i < n, ∀ k < n, A0 (permOf s.ipiv j i) k
    = (∑ l ∈ range (min (min i k) j), s.A i l * s.A l k)
      + if k < i ∧ k < j then s.A i k * s.A k k else s.A i k
  piv : ∀ k < j, s.A k k ≠ 0

theorem pivRow_spec (n j : Nat) (hj : j < n) (A : Nat → Nat → K) :
    j ≤ pivRow n j A ∧ pivRow n j A < n ∧ ∀ i, j ≤ i → i < n → |A i j| ≤ |A (pivRow n j A) j| := by
  obtain ⟨h1, h2⟩ := idamax_spec (n - j) (by omega) (fun i => A (j + i) j)
  unfold pivRow
  refine ⟨by omega, by omega, fun i hi hin => ?_⟩
  have := h2 (i - j) (by omega)
  rwa [Nat.add_sub_cancel' hi] at this

theorem luScale_eq (tiny : K) (n j jp : Nat) (hj : j < n) (A : Nat → Nat → K) (i k : Nat) (hi : i < n)
    (hk : k < n) :
    luScale tiny n n j jp A i k
      = if k = j ∧ j < i then A (Equiv.swap j jp i) k / A jp j else A (Equiv.swap j jp i) k := by
  have hA1 : ∀ i < n, ∀ k < n, (if jp ≠ j then swapRows n j jp A else A) i k = A (Equiv.swap j jp i) k := by
    intro i _ k hk
    rw [Equiv.swap_apply_def]
    by_cases h : jp = j
    · subst h
      simp only [ne_eq, not_true, if_false]
      split
      · next e => rw [e]
      · rfl
    · simp only [ne_eq, h, not_false_iff, if_true, swapRows, if_pos hk]
      split
      · rfl
      · split
        · rfl
        · rfl
  unfold luScale
  simp only [hA1 j hj j hj, Equiv.swap_apply_left, absif]
  have hA1' := hA1 i hi k hk
  generalize (if jp ≠ j then swapRows n j jp A else A) = A1 at hA1'
  split
  · split
    · simp only [hA1']
      by_cases h : k = j ∧ j < i
      · rw [if_pos h, if_pos ⟨h.1, h.2, hi⟩]; ring
      · rw [if_neg h, if_neg (by tauto)]
    · simp only [hA1']
      by_cases h : k = j ∧ j < i
      · rw [if_pos h, if_pos ⟨h.1, h.2, hi⟩]
      · rw [if_neg h, if_neg (by tauto)]
  · rw [if_neg (by omega), hA1']

/-- eliminating with any admissible nonzero pivot keeps the invariant -/
theorem luElim_inv (tiny : K) (A0 : Nat → Nat → K) (n j jp : Nat) (hj : j < n) (s : Lu K)
    (h : LuInv A0 n j s) (hp1 : j ≤ jp) (hp2 : jp < n) (hp : s.A jp j ≠ 0) (info : Nat) :
    LuInv A0 n (j + 1) { A := luTrail n n j (luScale tiny n n j jp s.A)
                         ipiv := Function.update s.ipiv j jp
                         info := info } := by
  -- entries of the new matrix
  let A1 : Nat → Nat → K := fun i k => s.A (Equiv.swap j jp i) k
  have hsw : ∀ i, i < j → Equiv.swap j jp i = i := fun i hi =>
    Equiv.swap_apply_of_ne_of_ne (by omega) (by omega)
  have hswge : ∀ i, j ≤ i → j ≤ Equiv.swap j jp i := by
    intro i hi
    rw [Equiv.swap_apply_def]
    split
    · exact hp1
    · split <;> omega
  have hswn : ∀ i, i < n → Equiv.swap j jp i < n := by
    intro i hi
    rw [Equiv.swap_apply_def]
    split
    · exact hp2
    · split <;> omega
  have hA1j : A1 j j = s.A jp j := by simp only [A1, Equiv.swap_apply_left]
  have h3a : ∀ i < n, ∀ k < n, i ≤ j ∨ k < j →
      luTrail n n j (luScale tiny n n j jp s.A) i k = A1 i k := by
    intro i hi k hk hor
    unfold luTrail
    rw [if_neg (by omega), luScale_eq tiny n j jp hj s.A i k hi hk, if_neg (by omega)]
  have h3b : ∀ i < n, j < i →
      luTrail n n j (luScale tiny n n j jp s.A) i j = A1 i j / A1 j j := by
    intro i hi hji
    unfold luTrail
    rw [if_neg (by omega), luScale_eq tiny n j jp hj s.A i j hi hj, if_pos ⟨rfl, hji⟩, hA1j]
  have h3c : ∀ i < n, ∀ k < n, j < i → j < k →
      luTrail n n j (luScale tiny n n j jp s.A) i k = A1 i k - A1 i j / A1 j j * A1 j k := by
    intro i hi k hk hji hjk
    unfold luTrail
    rw [if_pos ⟨hji, hi, hjk, hk⟩, luScale_eq tiny n j jp hj s.A i k hi hk, if_neg (by omega),
      luScale_eq tiny n j jp hj s.A i j hi hj, if_pos ⟨rfl, hji⟩,
      luScale_eq tiny n j jp hj s.A j k hj hk, if_neg (by omega), hA1j]
    ring
  -- the invariant of step `j` for the exchanged matrix
  have hfac : ∀ i < n, ∀ k < n, A0 (permOf s.ipiv j (Equiv.swap j jp i)) k
      = (∑ l ∈ range (min (min i k) j), A1 i l * A1 l k)
        + if k < i ∧ k < j then A1 i k * A1 k k else A1 i k := by
    intro i hi k hk
    rw [h.fac (Equiv.swap j jp i) (hswn i hi) k hk]
    have hmin : min (min (Equiv.swap j jp i) k) j = min (min i k) j := by
      rcases Nat.lt_or_ge i j with h' | h'
      · rw [hsw i h']
      · have := hswge i h'; omega
    rw [hmin]
    congr 1
    · refine sum_congr rfl fun l hl => ?_
      have hl' : l < j := by have := mem_range.1 hl; omega
      simp only [A1, hsw l hl']
    · have hc : (k < Equiv.swap j jp i ∧ k < j) ↔ (k < i ∧ k < j) := by
        rcases Nat.lt_or_ge i j with h' | h'
        · rw [hsw i h']
        · have := hswge i h'; omega
      by_cases hk' : k < i ∧ k < j
      · rw [if_pos (hc.2 hk'), if_pos hk']
        simp only [A1, hsw k hk'.2]
      · rw [if_neg (fun hh => hk' (hc.1 hh)), if_neg hk']
  have hperm : permOf (Function.update s.ipiv j jp) (j + 1) = permOf s.ipiv j * Equiv.swap j jp := by
    rw [permOf, Function.update_self,
      permOf_congr _ s.ipiv j fun i hi => Function.update_of_ne (by omega) _ _]
  have hpiv : A1 j j ≠ 0 := by rw [hA1j]; exact hp
  refine ⟨fun k hk => ?_, fun i hi k hk => ?_, fun k hk => ?_⟩
  · rcases Nat.lt_or_ge k j with h' | h'
    · simp only [Function.update_of_ne (show k ≠ j by omega)]
      exact h.ipiv k h'
    · have : k = j := by omega
      subst this
      simp only [Function.update_self]
      exact ⟨hp1, hp2⟩
  · simp only
    rw [hperm, Equiv.Perm.mul_apply, hfac i hi k hk]
    rcases Nat.lt_or_ge j i with hji | hji
    · rcases lt_trichotomy k j with hkj | hkj | hkj
      · have e : min (min i k) (j + 1) = min (min i k) j := by omega
        rw [e, if_pos ⟨by omega, hkj⟩, if_pos ⟨by omega, by omega⟩, h3a i hi k hk (Or.inr hkj),
          h3a k hk k hk (Or.inr hkj)]
        congr 1
        refine sum_congr rfl fun l hl => ?_
        have hl' : l < k := by have := mem_range.1 hl; omega
        rw [h3a i hi l (by omega) (Or.inr (by omega)), h3a l (by omega) k hk (Or.inr hkj)]
      · subst hkj
        have e : min (min i k) (k + 1) = min (min i k) k := by omega
        rw [e, if_neg (by omega), if_pos ⟨hji, by omega⟩, h3b i hi hji, h3a k hk k hk (Or.inl le_rfl),
          div_mul_cancel₀ _ hpiv]
        congr 1
        refine sum_congr rfl fun l hl => ?_
        have hl' : l < k := by have := mem_range.1 hl; omega
        rw [h3a i hi l (by omega) (Or.inr (by omega)), h3a l (by omega) k hk (Or.inl (by omega))]
      · have e1 : min (min i k) (j + 1) = j + 1 := by omega
        have e2 : min (min i k) j = j := by omega
        rw [e1, e2, if_neg (by omega), if_neg (by omega), sum_range_succ, h3c i hi k hk hji hkj,
          h3b i hi hji, h3a j hj k hk (Or.inl le_rfl)]
        have : ∑ l ∈ range j, luTrail n n j (luScale tiny n n j jp s.A) i l *
            luTrail n n j (luScale tiny n n j jp s.A) l k = ∑ l ∈ range j, A1 i l * A1 l k := by
          refine sum_congr rfl fun l hl => ?_
          have hl' := mem_range.1 hl
          rw [h3a i hi l (by omega) (Or.inr (by omega)), h3a l (by omega) k hk (Or.inl (by omega))]
        rw [this]; ring
    · have e : min (min i k) (j + 1) = min (min i k) j := by omega
      rw [e]
      congr 1
      · refine sum_congr rfl fun l hl => ?_
        have hl' : l < i := by have := mem_range.1 hl; omega
        rw [h3a i hi l (by omega) (Or.inl hji), h3a l (by omega) k hk (Or.inl (by omega))]
      · by_cases hc : k < i ∧ k < j
        · rw [if_pos hc, if_pos ⟨hc.1, by omega⟩, h3a i hi k hk (Or.inl hji), h3a k hk k hk (Or.inl (by omega))]
        · rw [if_neg hc, if_neg (by omega), h3a i hi k hk (Or.inl hji)]
  · rcases Nat.lt_or_ge k j with h' | h'
    · simp only
      rw [h3a k (by omega) k (by omega) (Or.inl (by omega))]
      simp only [A1, hsw k h']
      exact h.piv k h'
    · have : k = j := by omega
      subst this
      simp only
      rw [h3a k (by omega) k (by omega) (Or.inl le_rfl)]
      exact hpiv

/-- one step with a nonzero pivot keeps the invariant -/
theorem luStep_inv (tiny : K) (A0 : Nat → Nat → K) (n j : Nat) (hj : j < n) (s : Lu K)
    (h : LuInv A0 n j s) (hp : s.A (pivRow n j s.A) j ≠ 0) : LuInv A0 n (j + 1) (luStep tiny n n s j) := by
  obtain ⟨hp1, hp2, _⟩ := pivRow_spec n j hj s.A
  have hs : luStep tiny n n s j = { A := luTrail n n j (luScale tiny n n j (pivRow n j s.A) s.A)
                                    ipiv := Function.update s.ipiv j (pivRow n j s.A)
                                    info := s.info } := by
    unfold luStep
    simp only
    rw [if_pos hp]
  rw [hs]
  exact luElim_inv tiny A0 n j _ hj s h hp1 hp2 hp s.info

theorem lu_start (A0 : Nat → Nat → K) (n : Nat) (ipiv : Nat → Nat) (info : Nat) :
    LuInv A0 n 0 ⟨A0, ipiv, info⟩ := by
  refine ⟨fun k hk => by omega, fun i hi k hk => ?_, fun k hk => by omega⟩
  simp [permOf]

/-- after `j` steps either all pivots were nonzero and the invariant holds, or the first zero pivot is
recorded -/
theorem lu_loop (tiny : K) (A0 : Nat → Nat → K) (n : Nat) (ipiv : Nat → Nat) (j : Nat) (hj : j ≤ n) :
    let s := (List.range j).foldl (luStep tiny n n) ⟨A0, ipiv, 0⟩
    (s.info = 0 → LuInv A0 n j s) ∧
    (s.info ≠ 0 → ∃ j0 < j, s.info = j0 + 1 ∧ ∃ s0, LuInv A0 n j0 s0 ∧ s0.A (pivRow n j0 s0.A) j0 = 0) := by
  induction j with
  | zero => exact ⟨fun _ => lu_start A0 n ipiv 0, fun h => absurd rfl h⟩
  | succ j ih =>
    simp only [List.range_succ, List.foldl_append, List.foldl_cons, List.foldl_nil]
    obtain ⟨h1, h2⟩ := ih (by omega)
    generalize (List.range j).foldl (luStep tiny n n) ⟨A0, ipiv, 0⟩ = s at h1 h2
    by_cases hp : s.A (pivRow n j s.A) j ≠ 0
    · have hinfo : (luStep tiny n n s j).info = s.info := by
        unfold luStep; simp only; rw [if_pos hp]
      rw [hinfo]
      refine ⟨fun h => luStep_inv tiny A0 n j (by omega) s (h1 h) hp, fun h => ?_⟩
      obtain ⟨j0, a, b, c⟩ := h2 h
      exact ⟨j0, by omega, b, c⟩
    · have hinfo : (luStep tiny n n s j).info = if s.info = 0 then j + 1 else s.info := by
        unfold luStep; simp only; rw [if_neg hp]
      rw [hinfo]
      by_cases h0 : s.info = 0
      · rw [if_pos h0]
        exact ⟨fun h => by omega, fun _ => ⟨j, by omega, rfl, s, h1 h0, not_not.1 hp⟩⟩
      · rw [if_neg h0]
        refine ⟨fun h => absurd h h0, fun h => ?_⟩
        obtain ⟨j0, a, b, c⟩ := h2 h
        exact ⟨j0, by omega, b, c⟩

/-! ### right-hand side -/

theorem laswpBlock_eq (k2 : Nat) (ipiv : Nat → Nat) (lo hi : Nat) (B : Nat → Nat → K) (r k : Nat) :
    laswpBlock k2 ipiv lo hi B r k
      = if lo ≤ k ∧ k < hi then B (permOf ipiv k2 r) k else B r k := by
  unfold laswpBlock
  induction k2 generalizing r with
  | zero => simp [permOf]
  | succ j ih =>
    simp only [List.range_succ, List.foldl_append, List.foldl_cons, List.foldl_nil]
    rw [permOf, Equiv.Perm.mul_apply]
    by_cases h : ipiv j ≠ j
    · rw [if_pos h, swapCols, Equiv.swap_apply_def]
      by_cases hc : lo ≤ k ∧ k < hi
      · rw [if_pos hc, if_pos hc]
        split
        · rw [ih, if_pos hc]
        · split
          · rw [ih, if_pos hc]
          · rw [ih, if_pos hc]
      · rw [if_neg hc, if_neg hc, ih, if_neg hc]
    · rw [if_neg h, ih]
      have : ipiv j = j := not_not.1 h
      rw [this, Equiv.swap_self]
      rfl

theorem dlaswp_eq (n k2 : Nat) (ipiv : Nat → Nat) (B : Nat → Nat → K) (r k : Nat) (hk : k < n) :
    dlaswp n k2 ipiv B r k = B (permOf ipiv k2 r) k := by
  have hb : ∀ m, ∀ r k, (List.range m).foldl (fun B b => laswpBlock k2 ipiv (32 * b) (32 * b + 32) B) B r k
      = if k < 32 * m then B (permOf ipiv k2 r) k else B r k := by
    intro m
    induction m with
    | zero => intro r k; simp
    | succ m ih =>
      intro r k
      simp only [List.range_succ, List.foldl_append, List.foldl_cons, List.foldl_nil]
      rw [laswpBlock_eq]
      by_cases h : 32 * m ≤ k ∧ k < 32 * m + 32
      · rw [if_pos h, if_pos (by omega), ih, if_neg (by omega)]
      · rw [if_neg h, ih]
        by_cases h' : k < 32 * m
        · rw [if_pos h', if_pos (by omega)]
        · rw [if_neg h', if_neg (by omega)]
  unfold dlaswp
  split
  · rw [laswpBlock_eq]
    by_cases h : n / 32 * 32 ≤ k ∧ k < n
    · rw [if_pos h, hb, if_neg (by omega)]
    · rw [if_neg h, hb, if_pos (by omega)]
  · rw [hb, if_pos (by omega)]

theorem llnu_eq (m n : Nat) (A B : Nat → Nat → K) (i j : Nat) (hi : i < m) (hj : j < n) :
    dtrsmLlnu m n A B i j + ∑ l ∈ range i, A i l * dtrsmLlnu m n A B l j = B i j := by
  have key : ∀ t, t ≤ m → ∀ i < m,
      (List.range t).foldl (llnuStep m n A) B i j
        + ∑ l ∈ range (min i t), A i l * (List.range t).foldl (llnuStep m n A) B l j = B i j := by
    intro t
    induction t with
    | zero => intro _ i _; simp
    | succ t ih =>
      intro ht i hi
      have ih' := ih (by omega) i hi
      simp only [List.range_succ, List.foldl_append, List.foldl_cons, List.foldl_nil]
      generalize (List.range t).foldl (llnuStep m n A) B = C at ih'
      have hlow : ∀ l ≤ t, llnuStep m n A C t l j = C l j := by
        intro l hl; rw [llnuStep, if_neg (by omega)]
      rcases Nat.lt_or_ge t i with h | h
      · have e1 : min i (t + 1) = t + 1 := by omega
        have e2 : min i t = t := by omega
        rw [e2] at ih'
        rw [e1, sum_range_succ, hlow t le_rfl]
        have : ∑ l ∈ range t, A i l * llnuStep m n A C t l j = ∑ l ∈ range t, A i l * C l j :=
          sum_congr rfl fun l hl => by rw [hlow l (by have := mem_range.1 hl; omega)]
        rw [this, llnuStep, if_pos ⟨hj, h, hi⟩]
        linear_combination ih'
      · have e1 : min i (t + 1) = i := by omega
        have e2 : min i t = i := by omega
        rw [e2] at ih'
        rw [e1, hlow i h]
        have : ∑ l ∈ range i, A i l * llnuStep m n A C t l j = ∑ l ∈ range i, A i l * C l j :=
          sum_congr rfl fun l hl => by rw [hlow l (by have := mem_range.1 hl; omega)]
        rw [this]; exact ih'
  have := key m le_rfl i hi
  rw [min_eq_left hi.le] at this
  unfold dtrsmLlnu
  rw [if_neg (by omega)]
  exact this

theorem lunn_eq (m n : Nat) (A B : Nat → Nat → K) (hA : ∀ k < m, A k k ≠ 0) (i j : Nat) (hi : i < m)
    (hj : j < n) : ∑ l ∈ Ico i m, A i l * dtrsmLunn m n A B l j = B i j := by
  have key : ∀ t, t ≤ m → ∀ C : Nat → Nat → K,
      (∀ i < m, (if i < t then C i j else 0) + ∑ l ∈ Ico (max i t) m, A i l * C l j = B i j) →
      ∀ i < m, ∑ l ∈ Ico i m, A i l * (List.range t).reverse.foldl (lunnStep n A) C l j = B i j := by
    intro t
    induction t with
    | zero =>
      intro _ C hC i hi
      have := hC i hi
      rw [if_neg (by omega), zero_add, Nat.max_zero] at this
      exact this
    | succ t ih =>
      intro ht C hC
      rw [List.range_succ, List.reverse_append, List.reverse_cons, List.reverse_nil, List.nil_append,
        List.singleton_append, List.foldl_cons]
      refine ih (by omega) _ fun i hi => ?_
      have hC' := hC i hi
      have hs : ∀ l, t < l → lunnStep n A C t l j = C l j := by
        intro l hl; rw [lunnStep, if_pos hj, if_neg (by omega), if_neg (by omega)]
      have hst : lunnStep n A C t t j = C t j / A t t := by rw [lunnStep, if_pos hj, if_pos rfl]
      have hAt := hA t (by omega)
      rcases lt_trichotomy i t with h | h | h
      · have e1 : max i t = t := by omega
        have e2 : max i (t + 1) = t + 1 := by omega
        rw [if_pos (by omega), e2] at hC'
        rw [if_pos h, e1, sum_eq_sum_Ico_succ_bot (by omega), hst]
        have : ∑ l ∈ Ico (t + 1) m, A i l * lunnStep n A C t l j = ∑ l ∈ Ico (t + 1) m, A i l * C l j :=
          sum_congr rfl fun l hl => by rw [hs l (by have := mem_Ico.1 hl; omega)]
        rw [this, lunnStep, if_pos hj, if_neg (by omega), if_pos h]
        linear_combination hC'
      · subst h
        have e2 : max i (i + 1) = i + 1 := by omega
        rw [if_pos (by omega), e2] at hC'
        rw [if_neg (by omega), Nat.max_self, sum_eq_sum_Ico_succ_bot (by omega), hst]
        have : ∑ l ∈ Ico (i + 1) m, A i l * lunnStep n A C i l j = ∑ l ∈ Ico (i + 1) m, A i l * C l j :=
          sum_congr rfl fun l hl => by rw [hs l (by have := mem_Ico.1 hl; omega)]
        rw [this, mul_div_cancel₀ _ hAt, zero_add]
        exact hC'
      · have e1 : max i t = i := by omega
        have e2 : max i (t + 1) = i := by omega
        rw [if_neg (by omega), e2] at hC'
        rw [if_neg (by omega), e1]
        have : ∑ l ∈ Ico i m, A i l * lunnStep n A C t l j = ∑ l ∈ Ico i m, A i l * C l j :=
          sum_congr rfl fun l hl => by rw [hs l (by have := mem_Ico.1 hl; omega)]
        rw [this]; exact hC'
  have := key m le_rfl B (fun i hi => by
    rw [if_pos hi, max_eq_right hi.le, Ico_self, sum_empty, add_zero]) i hi
  unfold dtrsmLunn
  rw [if_neg (by omega)]
  exact this

omit [LinearOrder K] [IsStrictOrderedRing K] in
/-- the product of the unit lower and the upper triangular part, for the first `j` steps -/
theorem lu_product (A : Nat → Nat → K) (n i k : Nat) (hi : i < n) (hk : k < n) :
    (∑ l ∈ range (min (min i k) n), A i l * A l k) + (if k < i ∧ k < n then A i k * A k k else A i k)
      = ∑ l ∈ range n, (if l < i then A i l else if l = i then 1 else 0) * (if l ≤ k then A l k else 0) := by
  have h1 : ∑ l ∈ range n, (if l < i then A i l else if l = i then 1 else 0) * (if l ≤ k then A l k else 0)
      = ∑ l ∈ range (min i k + 1),
        (if l < i then A i l else if l = i then 1 else 0) * (if l ≤ k then A l k else 0) := by
    symm
    refine sum_subset (fun l hl => mem_range.2 (by have := mem_range.1 hl; omega)) fun l _ hl => ?_
    have : min i k < l := by have := mem_range.not.1 hl; omega
    by_cases h : k < l
    · rw [if_neg (show ¬ l ≤ k by omega), mul_zero]
    · rw [if_neg (show ¬ l < i by omega), if_neg (by omega), zero_mul]
  have e : min (min i k) n = min i k := by omega
  rw [h1, e, sum_range_succ]
  congr 1
  · refine sum_congr rfl fun l hl => ?_
    have := mem_range.1 hl
    rw [if_pos (by omega), if_pos (by omega)]
  · by_cases h : k < i
    · have e : min i k = k := by omega
      rw [e, if_pos ⟨h, hk⟩, if_pos h, if_pos le_rfl]
    · have e : min i k = i := by omega
      rw [e, if_neg (by omega), if_neg (by omega), if_pos rfl, if_pos (by omega), one_mul]

/-- forward and backward substitution with a complete factorisation solve the system -/
theorem lu_solves (A : Nat → Nat → K) (n : Nat) (s : Lu K) (hinv : LuInv A n n s) (B Y X : Nat → K)
    (hY : ∀ i < n, Y i + ∑ l ∈ range i, s.A i l * Y l = B (permOf s.ipiv n i))
    (hX : ∀ i < n, ∑ l ∈ Ico i n, s.A i l * X l = Y i) (i : Nat) (hi : i < n) :
    ∑ k ∈ range n, A i k * X k = B i := by
  obtain ⟨i', hi'⟩ := (permOf s.ipiv n).surjective i
  have hin : i' < n := (permOf_lt s.ipiv n n le_rfl (fun k hk => (hinv.ipiv k hk).2) i').1 (hi' ▸ hi)
  have h1 : ∑ k ∈ range n, A i k * X k = ∑ k ∈ range n,
      (∑ l ∈ range n, (if l < i' then s.A i' l else if l = i' then 1 else 0)
        * (if l ≤ k then s.A l k else 0)) * X k := by
    refine sum_congr rfl fun k hk => ?_
    rw [← hi', hinv.fac i' hin k (mem_range.1 hk), lu_product s.A n i' k hin (mem_range.1 hk)]
  have h2 : ∀ l ∈ range n, ∑ k ∈ range n, (if l ≤ k then s.A l k else 0) * X k = Y l := by
    intro l hl
    rw [← hX l (mem_range.1 hl)]
    rw [range_eq_Ico, ← sum_Ico_consecutive _ (Nat.zero_le l) (mem_range.1 hl).le]
    have z : ∑ k ∈ Ico 0 l, (if l ≤ k then s.A l k else 0) * X k = 0 :=
      sum_eq_zero fun k hk => by rw [if_neg (by have := mem_Ico.1 hk; omega), zero_mul]
    rw [z, zero_add]
    exact sum_congr rfl fun k hk => by rw [if_pos (mem_Ico.1 hk).1]
  rw [h1]
  simp only [sum_mul]
  rw [sum_comm]
  have h3 : ∑ l ∈ range n, ∑ k ∈ range n, (if l < i' then s.A i' l else if l = i' then 1 else 0)
        * (if l ≤ k then s.A l k else 0) * X k
      = ∑ l ∈ range n, (if l < i' then s.A i' l else if l = i' then 1 else 0) * Y l := by
    refine sum_congr rfl fun l hl => ?_
    rw [← h2 l hl, mul_sum]
    exact sum_congr rfl fun k _ => by ring
  rw [h3]
  have h4 := hY i' hin
  rw [hi'] at h4
  rw [← h4]
  have h5 : ∑ l ∈ range n, (if l < i' then s.A i' l else if l = i' then 1 else 0) * Y l
      = ∑ l ∈ range (i' + 1), (if l < i' then s.A i' l else if l = i' then 1 else 0) * Y l := by
    symm
    refine sum_subset (fun l hl => mem_range.2 (by have := mem_range.1 hl; omega)) fun l _ hl => ?_
    have := mem_range.not.1 hl
    rw [if_neg (by omega), if_neg (by omega), zero_mul]
  rw [h5, sum_range_succ, if_neg (by omega), if_pos rfl, one_mul, add_comm]
  congr 1
  exact sum_congr rfl fun l hl => by rw [if_pos (mem_range.1 hl)]

/-- a column without pivot gives a kernel vector -/
theorem lu_singular (A : Nat → Nat → K) (n j0 : Nat) (hj0 : j0 < n) (s : Lu K) (hinv : LuInv A n j0 s)
    (hz : ∀ i, j0 ≤ i → i < n → s.A i j0 = 0) :
    ∃ v : Nat → K, (∃ k < n, v k ≠ 0) ∧ ∀ i < n, ∑ k ∈ range n, A i k * v k = 0 := by
  let w := dtrsmLunn j0 1 s.A (fun i _ => - s.A i j0)
  have hw : ∀ i < j0, ∑ l ∈ Ico i j0, s.A i l * w l 0 = - s.A i j0 := fun i hi =>
    lunn_eq j0 1 s.A _ hinv.piv i 0 hi (by omega)
  let v : Nat → K := fun k => if k < j0 then w k 0 else if k = j0 then 1 else 0
  refine ⟨v, ⟨j0, hj0, ?_⟩, fun i hi => ?_⟩
  · simp only [v, lt_irrefl, if_false, if_true]; exact one_ne_zero
  obtain ⟨i', rfl⟩ := (permOf s.ipiv j0).surjective i
  have hin : i' < n := (permOf_lt s.ipiv n j0 hj0.le (fun k hk => (hinv.ipiv k hk).2) i').1 hi
  -- restrict to the columns `≤ j0`
  have h1 : ∑ k ∈ range n, A (permOf s.ipiv j0 i') k * v k
      = ∑ k ∈ range (j0 + 1), A (permOf s.ipiv j0 i') k * v k := by
    symm
    refine sum_subset (fun l hl => mem_range.2 (by have := mem_range.1 hl; omega)) fun l _ hl => ?_
    have := mem_range.not.1 hl
    simp only [v]
    rw [if_neg (by omega), if_neg (by omega), mul_zero]
  -- treat the row `i'` as row `r ≤ j0` of an upper triangular matrix with zero last diagonal entry
  let r := min i' j0
  let A' : Nat → Nat → K := fun p q => if p = r then s.A i' q else s.A p q
  have hAlt : ∀ l, l < j0 → ∀ k, A' l k = s.A l k := by
    intro l hl k
    simp only [A', r]
    split
    · next e =>
      have : i' = l := by omega
      rw [this]
    · rfl
  have h2 : ∀ k ∈ range (j0 + 1), A (permOf s.ipiv j0 i') k * v k
      = (∑ l ∈ range (j0 + 1), (if l < r then A' r l else if l = r then 1 else 0)
        * (if l ≤ k then A' l k else 0)) * v k := by
    intro k hk
    have hk' := mem_range.1 hk
    rw [hinv.fac i' hin k (by omega), ← lu_product A' (j0 + 1) r k (by simp only [r]; omega) hk']
    congr 1
    have e : min (min r k) (j0 + 1) = min (min i' k) j0 := by simp only [r]; omega
    rw [e]
    have hr : ∀ q, A' r q = s.A i' q := fun q => by simp only [A', if_true]
    congr 1
    · refine sum_congr rfl fun l hl => ?_
      have := mem_range.1 hl
      rw [hr, hAlt l (by omega)]
    · have hc : (k < r ∧ k < j0 + 1) ↔ (k < i' ∧ k < j0) := by simp only [r]; omega
      by_cases h : k < i' ∧ k < j0
      · rw [if_pos h, if_pos (hc.2 h), hr, hAlt k h.2]
      · rw [if_neg h, if_neg (fun hh => h (hc.1 hh)), hr]
  rw [h1, sum_congr rfl h2]
  simp only [sum_mul]
  rw [sum_comm]
  refine sum_eq_zero fun l hl => ?_
  have hl' := mem_range.1 hl
  have h3 : ∑ k ∈ range (j0 + 1), (if l ≤ k then A' l k else 0) * v k = 0 := by
    rcases Nat.lt_or_ge l j0 with h | h
    · rw [sum_range_succ, if_pos h.le, hAlt l h]
      have hv : v j0 = 1 := by simp only [v, lt_irrefl, if_false, if_true]
      rw [hv, mul_one]
      have : ∑ k ∈ range j0, (if l ≤ k then A' l k else 0) * v k = ∑ k ∈ Ico l j0, s.A l k * w k 0 := by
        rw [range_eq_Ico, ← sum_Ico_consecutive _ (Nat.zero_le l) h.le]
        have z : ∑ k ∈ Ico 0 l, (if l ≤ k then A' l k else 0) * v k = 0 :=
          sum_eq_zero fun k hk => by rw [if_neg (by have := mem_Ico.1 hk; omega), zero_mul]
        rw [z, zero_add]
        refine sum_congr rfl fun k hk => ?_
        have := mem_Ico.1 hk
        rw [if_pos this.1, hAlt l h]
        simp only [v, if_pos this.2]
      rw [this, hw l h, neg_add_cancel]
    · have : l = j0 := by omega
      subst this
      refine sum_eq_zero fun k hk => ?_
      have hk' := mem_range.1 hk
      by_cases hlk : l ≤ k
      · have : k = l := by omega
        subst this
        rw [if_pos le_rfl]
        have : A' k k = 0 := by
          simp only [A', r]
          split
          · exact hz i' (by omega) hin
          · exact hz k le_rfl hj0
        rw [this, zero_mul]
      · rw [if_neg hlk, zero_mul]
  have h4 : ∑ k ∈ range (j0 + 1), (if l < r then A' r l else if l = r then 1 else 0)
        * (if l ≤ k then A' l k else 0) * v k
      = (if l < r then A' r l else if l = r then 1 else 0)
        * ∑ k ∈ range (j0 + 1), (if l ≤ k then A' l k else 0) * v k := by
    rw [mul_sum]
    exact sum_congr rfl fun k _ => by ring
  rw [h4, h3, mul_zero]

end Acados.Math
