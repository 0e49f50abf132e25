import Verif.Spec.Csc
import Mathlib.Algebra.BigOperators.Intervals
import Mathlib.Algebra.BigOperators.Ring.Finset
import Mathlib.Algebra.BigOperators.Ring.List
import Mathlib.Algebra.Order.BigOperators.Group.List
import Mathlib.Data.List.Flatten
import Mathlib.Tactic.Ring
import Mathlib.Tactic.Common
/-! # Lemmas about compressed columns built column by column -/
namespace Acados.Csc
open Finset
variable {K : Type*}

theorem off_mono (len : Nat → Nat) {a b : Nat} (h : a ≤ b) : off len a ≤ off len b := by
  induction b with
  | zero => obtain rfl : a = 0 := by omega
            exact Nat.le_refl _
  | succ b ih =>
    by_cases e : a = b + 1
    · rw [e]
    · exact (ih (by omega)).trans (Nat.le_add_right _ _)

theorem off_block (len : Nat → Nat) {k n : Nat} (h : k < n) : off len k + len k ≤ off len n :=
  off_mono len (show k + 1 ≤ n from h)

/-- positions in different blocks differ -/
theorem off_inj (len : Nat → Nat) {k k' i i' : Nat} (hi : i < len k) (hi' : i' < len k')
    (h : off len k + i = off len k' + i') : k = k' ∧ i = i' := by
  rcases Nat.lt_trichotomy k k' with e | e | e
  · have := off_block len e; omega
  · subst e; exact ⟨rfl, by omega⟩
  · have := off_block len e; omega

/-- every position lies in a block -/
theorem off_cases (len : Nat → Nat) (n c : Nat) (hc : c < off len n) : ∃ k < n, ∃ i < len k, c = off len k + i := by
  induction n with
  | zero => exact absurd hc (Nat.not_lt_zero _)
  | succ n ih =>
    by_cases h : c < off len n
    · obtain ⟨k, hk, i, hi, e⟩ := ih h
      exact ⟨k, by omega, i, hi, e⟩
    · have : off len (n + 1) = off len n + len n := rfl
      exact ⟨n, by omega, c - off len n, by omega, by omega⟩

theorem sum_off [AddCommMonoid K] (len : Nat → Nat) (n : Nat) (f : Nat → K) :
    ∑ c ∈ range (off len n), f c = ∑ k ∈ range n, ∑ i ∈ range (len k), f (off len k + i) := by
  induction n with
  | zero => simp [off]
  | succ n ih =>
    rw [sum_range_succ, ← ih]
    exact Finset.sum_range_add f (off len n) (len n)

/-- blocks of lists, one per pair of stage and position -/
def blocks {α : Type*} (len : Nat → Nat) (g : Nat → Nat → α) (n : Nat) : List α :=
  (List.range n).flatMap fun k => (List.range (len k)).map (g k)

theorem blocks_succ {α : Type*} (len : Nat → Nat) (g : Nat → Nat → α) (n : Nat) :
    blocks len g (n + 1) = blocks len g n ++ (List.range (len n)).map (g n) := by
  simp [blocks, List.range_succ, List.flatMap_append]

theorem blocks_length {α : Type*} (len : Nat → Nat) (g : Nat → Nat → α) (n : Nat) : (blocks len g n).length = off len n := by
  induction n with
  | zero => rfl
  | succ n ih => rw [blocks_succ, List.length_append, ih]; simp [off]

theorem blocks_get {α : Type*} (len : Nat → Nat) (g : Nat → Nat → α) (n : Nat) {k i : Nat} (hk : k < n) (hi : i < len k) :
    (blocks len g n)[off len k + i]? = some (g k i) := by
  induction n with
  | zero => omega
  | succ n ih =>
    rw [blocks_succ]
    by_cases e : k = n
    · subst e
      rw [List.getElem?_append_right (by rw [blocks_length]; omega), blocks_length,
        show off len k + i - off len k = i by omega, List.getElem?_map, List.getElem?_range hi]
      rfl
    · have := off_block len (show k < n by omega)
      rw [List.getElem?_append_left (by rw [blocks_length]; omega), ih (by omega)]

/-- column pointers of a list of columns -/
def ptrs {α : Type*} (cols : List (List α)) : List Nat :=
  (List.range (cols.length + 1)).map fun c => ((cols.map List.length).take c).sum

theorem ptrs_getD {α : Type*} (cols : List (List α)) {c : Nat} (h : c ≤ cols.length) :
    (ptrs cols).getD c 0 = ((cols.map List.length).take c).sum := by
  rw [ptrs, List.getD_eq_getElem?_getD, List.getElem?_map, List.getElem?_range (by omega)]; rfl

theorem zip_flatten {α β : Type*} (as : List (List α)) (bs : List (List β)) (h : as.map List.length = bs.map List.length) :
    as.flatten.zip bs.flatten = (List.zipWith List.zip as bs).flatten := by
  induction as generalizing bs with
  | nil => rfl
  | cons a as ih =>
    cases bs with
    | nil => simp at h
    | cons b bs =>
      simp only [List.map_cons, List.cons.injEq] at h
      rw [List.flatten_cons, List.flatten_cons, List.zip_append h.1, ih bs h.2, List.zipWith_cons_cons, List.flatten_cons]

/-- the columns of a matrix built column by column -/
theorem col_of_cols (rows : List (List Nat)) (vals : List (List K)) (h : rows.map List.length = vals.map List.length)
    {c : Nat} (hc : c < rows.length) (r : List Nat) (v : List K) (hr : rows[c]? = some r) (hv : vals[c]? = some v) :
    Csc.col ⟨ptrs rows, rows.flatten, vals.flatten⟩ c = r.zip v := by
  have hl : vals.length = rows.length := by
    have := congrArg List.length h; simpa using this.symm
  rw [Csc.col, ptrs_getD rows (by omega), ptrs_getD rows (by omega), zip_flatten rows vals h]
  have hm : (List.zipWith List.zip rows vals).map List.length = rows.map List.length := by
    clear hc hr hv hl
    induction rows generalizing vals with
    | nil => rfl
    | cons a as ih =>
      cases vals with
      | nil => simp at h
      | cons b bs =>
        simp only [List.map_cons, List.cons.injEq] at h
        rw [List.zipWith_cons_cons, List.map_cons, List.map_cons, ih bs h.2, List.length_zip, ← h.1, Nat.min_self]
  have hc' : c < (List.zipWith List.zip rows vals).length := by rw [List.length_zipWith, hl]; omega
  rw [← hm, List.drop_take_succ_flatten_eq_getElem _ c hc']
  rw [List.getElem_zipWith]
  congr 1
  · have := List.getElem?_eq_some_iff.1 hr; exact this.2
  · have := List.getElem?_eq_some_iff.1 hv; exact this.2

theorem sum_take_le (l : List Nat) (c : Nat) : (l.take c).sum ≤ (l.take (c + 1)).sum := by
  induction l generalizing c with
  | nil => simp
  | cons a l ih =>
    cases c with
    | zero => simp
    | succ c => simpa using ih c

/-- a matrix built column by column is well-formed if its columns are -/
theorem valid_of_cols (rows : List (List Nat)) (vals : List (List K)) (h : rows.map List.length = vals.map List.length)
    (m : Nat) (hm : ∀ r ∈ rows, (∀ i ∈ r, i < m) ∧ r.Nodup) :
    Csc.Valid ⟨ptrs rows, rows.flatten, vals.flatten⟩ m rows.length := by
  have hl : vals.length = rows.length := by
    have := congrArg List.length h; simpa using this.symm
  have hcol : ∀ c < rows.length, ∃ r v, rows[c]? = some r ∧ vals[c]? = some v ∧ r.length = v.length ∧
      Csc.col ⟨ptrs rows, rows.flatten, vals.flatten⟩ c = r.zip v := by
    intro c hc
    refine ⟨rows[c], vals[c], List.getElem?_eq_getElem hc, List.getElem?_eq_getElem (by omega), ?_, ?_⟩
    · have := congrArg (fun l : List Nat => l[c]?) h
      simp only [List.getElem?_map, List.getElem?_eq_getElem hc,
        List.getElem?_eq_getElem (show c < vals.length by omega)] at this
      simpa using this
    · exact col_of_cols rows vals h hc _ _ (List.getElem?_eq_getElem hc) (List.getElem?_eq_getElem (by omega))
  constructor
  case len => simp [ptrs]
  case first => rw [ptrs_getD rows (by omega)]; simp
  case mono =>
    intro c hc
    show (ptrs rows).getD c 0 ≤ (ptrs rows).getD (c + 1) 0
    rw [ptrs_getD rows (by omega), ptrs_getD rows (by omega)]
    exact sum_take_le _ _
  case last =>
    show (ptrs rows).getD rows.length 0 = _
    rw [ptrs_getD rows (Nat.le_refl _), List.take_of_length_le (by simp), List.length_flatten]
  case vals =>
    show vals.flatten.length = rows.flatten.length
    rw [List.length_flatten, List.length_flatten, h]
  case rows =>
    intro c hc e he
    obtain ⟨r, v, hr, _, _, e'⟩ := hcol c hc
    rw [e'] at he
    exact (hm r (List.mem_of_getElem? hr)).1 e.1 (List.of_mem_zip he).1
  case nodup =>
    intro c hc
    obtain ⟨r, v, hr, _, hlen, e'⟩ := hcol c hc
    rw [e', List.map_fst_zip (by omega)]
    exact (hm r (List.mem_of_getElem? hr)).2

section
variable [Ring K]

/-- entry `r` of a column given as list -/
def rowSum (l : List (Nat × K)) (r : Nat) : K := (l.map fun e => if e.1 = r then e.2 else 0).sum

@[simp] theorem rowSum_nil (r : Nat) : rowSum ([] : List (Nat × K)) r = 0 := rfl

theorem rowSum_cons (e : Nat × K) (l : List (Nat × K)) (r : Nat) :
    rowSum (e :: l) r = (if e.1 = r then e.2 else 0) + rowSum l r := by simp [rowSum]

theorem rowSum_append (l l' : List (Nat × K)) (r : Nat) : rowSum (l ++ l') r = rowSum l r + rowSum l' r := by
  simp [rowSum, List.sum_append]

/-- a block of consecutive rows -/
theorem rowSum_block (n base : Nat) (f : Nat → K) (r : Nat) :
    rowSum ((List.range n).map fun i => (base + i, f i)) r = if base ≤ r ∧ r < base + n then f (r - base) else 0 := by
  induction n with
  | zero => rw [if_neg (by omega)]; rfl
  | succ n ih =>
    rw [List.range_succ, List.map_append, rowSum_append, ih, List.map_singleton, rowSum_cons, rowSum_nil, add_zero]
    by_cases h : base + n = r
    · rw [if_neg (by omega), if_pos h, if_pos (by omega), ← h, show base + n - base = n by omega, zero_add]
    · rw [if_neg h, add_zero]
      have : (base ≤ r ∧ r < base + n) ↔ (base ≤ r ∧ r < base + (n + 1)) := by omega
      simp only [this]

/-- consecutive rows selected by a condition -/
theorem rowSum_filter (n base : Nat) (s : Nat → Bool) (v : K) (r : Nat) :
    rowSum (((List.range n).filter s).map fun i => (base + i, v)) r
      = if base ≤ r ∧ r < base + n ∧ s (r - base) then v else 0 := by
  induction n with
  | zero => rw [if_neg (by omega)]; rfl
  | succ n ih =>
    rw [List.range_succ, List.filter_append, List.map_append, rowSum_append, ih]
    by_cases hs : s n
    · simp only [List.filter_cons, List.filter_nil, hs, if_true, List.map_cons, List.map_nil, rowSum_cons, rowSum_nil, add_zero]
      by_cases h : base + n = r
      · have : r - base = n := by omega
        rw [if_neg (by omega), if_pos h, if_pos ⟨by omega, by omega, by rw [this]; exact hs⟩, zero_add]
      · rw [if_neg h, add_zero]
        have : (base ≤ r ∧ r < base + n ∧ s (r - base)) ↔ (base ≤ r ∧ r < base + (n + 1) ∧ s (r - base)) :=
          ⟨fun ⟨a, b, c⟩ => ⟨a, by omega, c⟩, fun ⟨a, b, c⟩ => ⟨a, by omega, c⟩⟩
        simp only [this]
    · simp only [List.filter_cons, List.filter_nil, hs, Bool.false_eq_true, if_false, List.map_nil, rowSum_nil, add_zero]
      have : (base ≤ r ∧ r < base + n ∧ s (r - base)) ↔ (base ≤ r ∧ r < base + (n + 1) ∧ s (r - base)) := by
        refine ⟨fun ⟨a, b, c⟩ => ⟨a, by omega, c⟩, fun ⟨a, b, c⟩ => ⟨a, ?_, c⟩⟩
        rcases Nat.lt_or_ge r (base + n) with h | h
        · exact h
        · exfalso
          have : r - base = n := by omega
          rw [this] at c
          exact hs c
      simp only [this]

/-- `Aᵀ y` from the list of a column -/
theorem sum_rowSum (l : List (Nat × K)) (m : Nat) (y : Nat → K) (h : ∀ e ∈ l, e.1 < m) :
    ∑ r ∈ range m, rowSum l r * y r = (l.map fun e => e.2 * y e.1).sum := by
  induction l with
  | nil => simp [rowSum]
  | cons e l ih =>
    simp only [rowSum_cons, add_mul, sum_add_distrib]
    rw [ih fun e' he' => h e' (List.mem_cons_of_mem _ he')]
    simp only [List.map_cons, List.sum_cons]
    congr 1
    have := h e List.mem_cons_self
    simp only [ite_mul, zero_mul]
    rw [Finset.sum_ite_eq]
    rw [if_pos (Finset.mem_range.2 this)]

end
end Acados.Csc
