import Verif.Model.QpDump
import Mathlib.Data.Nat.Digits.Lemmas
/-! Lemmas for C95. -/
namespace Acados.QpDump
variable {K : Type} [Field K] [LinearOrder K]

/-- value of a digit -/
def charVal (c : Char) : Nat := c.toNat - 48

theorem digit_ok : ∀ d < 10, charVal (Nat.digitChar d) = d ∧ '0' ≤ Nat.digitChar d ∧ Nat.digitChar d ≤ '9' ∧ Nat.digitChar d ≠ '_' := by decide

/-- value of a sequence of digits -/
def val (l : List Char) : Nat := Nat.ofDigits 10 ((l.map charVal).reverse)

theorem map_digits (l : List Nat) (h : ∀ d ∈ l, d < 10) : (l.map Nat.digitChar).map charVal = l := by
  rw [List.map_map]
  conv_rhs => rw [← List.map_id l]
  exact List.map_congr_left fun d hd => (digit_ok d (h d hd)).1

theorem val_str (n : Nat) : val (str n) = n := by
  unfold val str
  split
  · rename_i h
    subst h
    decide
  · rw [List.map_reverse, List.reverse_reverse, map_digits _ fun d hd => Nat.digits_lt_base (by decide) hd, Nat.ofDigits_digits]

theorem ofDigits_zeros (m : Nat) : Nat.ofDigits 10 (List.replicate m 0) = 0 := by
  induction m with
  | zero => rfl
  | succ m ih => rw [List.replicate_succ, Nat.ofDigits_cons, ih]

theorem val_pad (w n : Nat) : val (pad w n) = n := by
  have h : val (pad w n) = val (str n) := by
    unfold val pad
    rw [List.map_append, List.reverse_append, Nat.ofDigits_append, List.map_replicate, show charVal '0' = 0 from rfl, List.reverse_replicate, ofDigits_zeros, Nat.mul_zero, Nat.add_zero]
  rw [h, val_str]

theorem str_digits (n : Nat) : ∀ c ∈ str n, '0' ≤ c ∧ c ≤ '9' ∧ c ≠ '_' := by
  unfold str
  split
  · intro c hc
    rw [List.mem_singleton] at hc
    subst hc
    decide
  · intro c hc
    rw [List.mem_reverse, List.mem_map] at hc
    obtain ⟨d, hd, rfl⟩ := hc
    exact (digit_ok d (Nat.digits_lt_base (by decide) hd)).2

theorem str_pos (n : Nat) : 0 < (str n).length := by
  unfold str
  split
  · decide
  · rename_i h
    rw [List.length_reverse, List.length_map]
    exact List.length_pos_iff.2 (Nat.digits_ne_nil_iff_ne_zero.2 h)

theorem str_mono {n m : Nat} (h : n ≤ m) : (str n).length ≤ (str m).length := by
  by_cases h0 : n = 0
  · subst h0
    exact str_pos m
  · unfold str
    rw [if_neg h0, if_neg (by omega), List.length_reverse, List.length_reverse, List.length_map, List.length_map]
    exact Nat.le_digits_len_le 10 n m h

theorem pad_digits (w n : Nat) : ∀ c ∈ pad w n, '0' ≤ c ∧ c ≤ '9' ∧ c ≠ '_' := by
  intro c hc
  unfold pad at hc
  rw [List.mem_append] at hc
  rcases hc with h | h
  · rw [List.eq_of_mem_replicate h]
    decide
  · exact str_digits n c h

theorem pad_length (w n : Nat) : (pad w n).length = max w (str n).length := by
  unfold pad
  rw [List.length_append, List.length_replicate]
  omega

theorem lastPart_key (w : Nat) (f : F) (k : Nat) : lastPart (key w f k) = pad w k := by
  unfold lastPart key
  rw [List.reverse_append, List.reverse_cons, List.append_assoc, List.takeWhile_append_of_pos]
  · simp
  · intro c hc
    rw [List.mem_reverse] at hc
    simpa using (pad_digits w k c hc).2.2

theorem all_fields (f : F) : f ∈ fields := by cases f <;> decide

theorem name_inj' : ∀ f ∈ fields, ∀ g ∈ fields, f.name = g.name → f = g := by decide +kernel

theorem name_inj (f g : F) : f.name = g.name → f = g := name_inj' f (all_fields f) g (all_fields g)

theorem key_inj (w : Nat) {f g : F} {k j : Nat} (h : key w f k = key w g j) : f = g ∧ k = j := by
  have h1 : pad w k = pad w j := by rw [← lastPart_key w f k, h, lastPart_key]
  have h2 : k = j := by rw [← val_pad w k, h1, val_pad]
  subst h2
  unfold key at h
  exact ⟨name_inj _ _ (List.append_cancel_right h), rfl⟩

theorem isdigit_pad (w n : Nat) : isdigit (pad w n) = true := by
  unfold isdigit
  rw [Bool.and_eq_true]
  constructor
  · have h := pad_length w n
    have := str_pos n
    rcases hp : pad w n with _ | ⟨c, t⟩
    · rw [hp, List.length_nil] at h
      omega
    · rfl
  · rw [List.all_eq_true]
    intro c hc
    have := pad_digits w n c hc
    simp [this.1, this.2.1]

theorem mem_dump (w : Nat) (rnd : K → K) (d : Dims) (v : Data K) (q : List Char × Mat K) :
    q ∈ dump w rnd d v ↔ ∃ f k, k ≤ d.N ∧ written d f k = true ∧ q = (key w f k, entry rnd d v f k) := by
  unfold dump
  simp only [List.mem_flatMap, List.mem_range]
  constructor
  · rintro ⟨f, _, k, hk, h⟩
    split at h
    · rename_i hw
      exact ⟨f, k, by omega, hw, List.mem_singleton.1 h⟩
    · cases h
  · rintro ⟨f, k, hk, hw, rfl⟩
    exact ⟨f, all_fields f, k, by omega, by rw [if_pos hw]; exact List.mem_singleton_self _⟩

theorem find_dump (w : Nat) (rnd : K → K) (d : Dims) (v : Data K) (f : F) (k : Nat) :
    find (dump w rnd d v) (key w f k) = if k ≤ d.N ∧ written d f k = true then some (entry rnd d v f k) else none := by
  unfold find
  split
  · rename_i h
    have hm := (mem_dump w rnd d v _).2 ⟨f, k, h.1, h.2, rfl⟩
    rcases he : (dump w rnd d v).find? fun q => q.1 == key w f k with _ | q
    · rw [List.find?_eq_none] at he
      have := he _ hm
      simp at this
    · have h1 := List.find?_some he
      obtain ⟨g, j, _, _, rfl⟩ := (mem_dump w rnd d v q).1 (List.mem_of_find?_eq_some he)
      obtain ⟨rfl, rfl⟩ := key_inj w (beq_iff_eq.1 h1)
      rw [he]
      rfl
  · rename_i h
    rw [List.find?_eq_none.2]
    · rfl
    · intro q hq
      obtain ⟨g, j, hj, hw, rfl⟩ := (mem_dump w rnd d v q).1 hq
      intro hc
      obtain ⟨rfl, rfl⟩ := key_inj w (beq_iff_eq.1 hc)
      exact h ⟨hj, hw⟩

theorem prefix_key (w : Nat) (f : F) (k : Nat) : ['Q', '_'].isPrefixOf (key w f k) = decide (f = .Q) := by
  unfold key
  cases f <;> rfl

theorem flat_single {α β : Type} (l : List α) (g : α → β) : (l.flatMap fun a => [g a]) = l.map g := by
  induction l with
  | nil => rfl
  | cons a t ih => rw [List.flatMap_cons, ih]; rfl

theorem count_Q (w : Nat) (rnd : K → K) (d : Dims) (v : Data K) (hx : ∀ k ≤ d.N, 0 < d.nx k) :
    ((dump w rnd d v).filter fun q => ['Q', '_'].isPrefixOf q.1).length = d.N + 1 := by
  have h : (dump w rnd d v).filter (fun q => ['Q', '_'].isPrefixOf q.1)
      = fields.flatMap fun f => if f = .Q then (List.range (d.N + 1)).map fun k => (key w .Q k, entry rnd d v .Q k) else [] := by
    unfold dump
    rw [List.filter_flatMap]
    congr 1
    funext f
    rw [List.filter_flatMap]
    by_cases hf : f = .Q
    · subst hf
      rw [if_pos rfl, ← flat_single]
      apply List.flatMap_congr
      intro k hk
      have hk' := hx k (by have := List.mem_range.1 hk; omega)
      have hw : written d .Q k = true := by
        have : d.nx k * d.nx k ≠ 0 := by simp; omega
        simp [written, F.isDyn, size]; omega
      rw [if_pos hw, List.filter_singleton, prefix_key]
      rfl
    · rw [if_neg hf, List.flatMap_eq_nil_iff]
      intro k _
      split
      · rw [List.filter_singleton, prefix_key, decide_eq_false hf]
        rfl
      · rfl
  rw [h]
  simp [fields]

/-- the loaded QP -/
def loaded (rnd : K → K) (d : Dims) (v : Data K) : Qp K :=
  ⟨d.N, fun f k => ((if k ≤ d.N ∧ written d f k = true then some (entry rnd d v f k) else none).map (store f)).getD (store f empty)⟩

theorem load_eq (rnd : K → K) (d : Dims) (v : Data K) (hx : ∀ k ≤ d.N, 0 < d.nx k) :
    load (dump (str (d.N + 1)).length rnd d v) = if (List.range (d.N + 1)).all (stageOk (loaded rnd d v)) then some (loaded rnd d v) else none := by
  unfold load
  dsimp only
  rw [count_Q _ rnd d v hx, if_neg (by omega), Nat.add_sub_cancel, if_neg]
  · have e : (⟨d.N, fun f k => ((find (dump (str (d.N + 1)).length rnd d v) (key (str (d.N + 1)).length f k)).map (store f)).getD (store f empty)⟩ : Qp K) = loaded rnd d v := by
      unfold loaded
      congr 1
      funext f k
      rw [find_dump]
    rw [e]
  · rw [Bool.not_eq_true, List.any_eq_false]
    intro q hq
    obtain ⟨f, k, hk, _, rfl⟩ := (mem_dump _ rnd d v q).1 hq
    rw [lastPart_key, pad_length]
    have := str_mono (show k ≤ d.N + 1 by omega)
    rw [max_eq_left this]
    simp

theorem load_digits (w : Nat) (rnd : K → K) (d : Dims) (v : Data K) (hx : ∀ k ≤ d.N, 0 < d.nx k) (hw : (str d.N).length ≤ w) (hne : w ≠ (str (d.N + 1)).length) :
    load (dump w rnd d v) = none := by
  unfold load
  dsimp only
  rw [count_Q _ rnd d v hx, if_neg (by omega), Nat.add_sub_cancel, if_pos]
  rw [List.any_eq_true]
  have hq : written d .Q 0 = true := by
    have := hx 0 (Nat.zero_le _)
    simp [written, F.isDyn, size]; omega
  refine ⟨_, (mem_dump w rnd d v _).2 ⟨.Q, 0, Nat.zero_le _, hq, rfl⟩, ?_⟩
  dsimp only
  rw [lastPart_key, isdigit_pad, pad_length, max_eq_left (le_trans (str_mono (Nat.zero_le _)) hw)]
  simpa using hne

/-- the value that is read for an entry -/
def rd (rnd : K → K) (f : F) (x : K) : K := if f.isInt then x else rnd x

theorem vec_get (rnd : K → K) (d : Dims) (v : Data K) (f : F) (k : Nat) (hv : f.isMat = false) (h : d.has f k) :
    ((loaded rnd d v).get f k).rows = d.rows f k ∧ ((loaded rnd d v).get f k).cols = 1 ∧ ∀ i < d.rows f k, ((loaded rnd d v).get f k).e i 0 = rd rnd f (v f k i 0) := by
  have hd : (f.isDyn && k == d.N) = false := by
    by_cases hf : f.isDyn = true
    · have := h.2 hf
      rw [hf, Bool.true_and, beq_eq_false_iff_ne]; omega
    · rw [Bool.not_eq_true] at hf
      rw [hf]; rfl
  have hs : size d f k = (d.rows f k, 1) ∨ size d f k = (1, d.rows f k) := by
    cases f <;> first | (exact Or.inl rfl) | (exact Or.inr rfl) | cases hv
  have hp : (size d f k).1 * (size d f k).2 = d.rows f k := by rcases hs with e | e <;> rw [e] <;> simp
  unfold loaded
  dsimp only
  by_cases h0 : d.rows f k = 0
  · rw [if_neg (by simp [written, hp, h0])]
    refine ⟨?_, ?_, fun i hi => by omega⟩
    · simp [store, hv, empty, h0]
    · simp [store, hv]
  · have hw : written d f k = true := by simp [written, hd, hp, h0]
    rw [if_pos ⟨h.1, hw⟩]
    refine ⟨?_, ?_, fun i hi => ?_⟩
    · simp [store, hv, entry, hp]
    · simp [store, hv]
    · show (store f (entry rnd d v f k)).e i 0 = _
      unfold store
      rw [if_neg (by rw [hv]; simp)]
      unfold entry buffer
      dsimp only
      rcases hs with e | e <;> rw [e] <;> dsimp only
      · rw [Nat.div_one, Nat.mod_one, Nat.zero_mul, Nat.zero_add, if_neg (show ¬ f.isMat = true by rw [hv]; simp)]
        rfl
      · rw [Nat.mod_eq_of_lt hi, Nat.div_eq_of_lt hi, Nat.mul_one, Nat.add_zero, if_neg (show ¬ f.isMat = true by rw [hv]; simp)]
        rfl

theorem mat_get (rnd : K → K) (d : Dims) (v : Data K) (f : F) (k : Nat) (hm : f.isMat = true) (h : d.has f k) (hr : 0 < d.rows f k) (hc : 0 < d.cols f k) :
    ((loaded rnd d v).get f k).rows = d.rows f k ∧ ((loaded rnd d v).get f k).cols = d.cols f k
    ∧ ∀ r < d.rows f k, ∀ c, ((loaded rnd d v).get f k).e r c = rd rnd f (v f k r c) := by
  have hd : (f.isDyn && k == d.N) = false := by
    by_cases hf : f.isDyn = true
    · have := h.2 hf
      rw [hf, Bool.true_and, beq_eq_false_iff_ne]; omega
    · rw [Bool.not_eq_true] at hf
      rw [hf]; rfl
  have hs : size d f k = (d.rows f k, d.cols f k) := by
    cases f <;> first | rfl | cases hm
  have hw : written d f k = true := by
    have : d.rows f k * d.cols f k ≠ 0 := Nat.mul_ne_zero (by omega) (by omega)
    unfold written
    rw [hd, hs]
    simpa using this
  unfold loaded
  dsimp only
  rw [if_pos ⟨h.1, hw⟩]
  show (store f (entry rnd d v f k)).rows = _ ∧ (store f (entry rnd d v f k)).cols = _ ∧ ∀ r < d.rows f k, ∀ c, (store f (entry rnd d v f k)).e r c = _
  unfold store
  rw [if_pos hm]
  unfold entry buffer
  dsimp only
  rw [hs]
  refine ⟨rfl, rfl, fun r hr c => ?_⟩
  dsimp only
  rw [if_pos hm, Nat.add_comm, Nat.add_mul_mod_self_right, Nat.mod_eq_of_lt hr, Nat.add_mul_div_right _ _ (by omega), Nat.div_eq_of_lt hr, Nat.zero_add]
  rfl

omit [LinearOrder K] in
theorem mat_empty (rnd : K → K) (d : Dims) (v : Data K) (f : F) (k : Nat) (hm : f.isMat = true) (h : d.rows f k = 0 ∨ d.cols f k = 0) :
    ((loaded rnd d v).get f k).rows = 0 := by
  have hs : size d f k = (d.rows f k, d.cols f k) := by
    cases f <;> first | rfl | cases hm
  have hw : written d f k = false := by
    unfold written
    rw [hs]
    rcases h with h | h <;> simp [h]
  unfold loaded
  dsimp only
  rw [hw, if_neg (by simp)]
  simp [store, hm, empty]

end Acados.QpDump
