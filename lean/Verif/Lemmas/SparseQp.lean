import Verif.Model.SparseQp
import Verif.Spec.OcpQp
import Verif.Lemmas.Csc
import Mathlib.Tactic.LinearCombination
/-! # Lemmas about the sparse QP data -/
namespace Acados.SparseQp
open Acados.QpScal Acados.Csc Finset
variable {K : Type*} [Field K] [LinearOrder K]

theorem foldl_addCol (cols : List (List Nat)) (s : Build) :
    cols.foldl addCol s = ⟨s.p ++ (List.range cols.length).map (fun c => s.i.length + ((cols.map List.length).take c).sum),
      s.i ++ cols.flatten⟩ := by
  induction cols generalizing s with
  | nil => simp
  | cons a cols ih =>
    rw [List.foldl_cons, ih]
    simp only [addCol, List.length_append, List.flatten_cons, List.append_assoc, List.map_cons, List.length_cons,
      Build.mk.injEq, List.append_cancel_left_eq, and_true]
    rw [List.range_succ_eq_map]
    simp [List.map_map, Function.comp_def, Nat.add_assoc]

theorem build_eq (cols : List (List Nat)) : build cols = ⟨ptrs cols, cols.flatten⟩ := by
  simp only [build, foldl_addCol, List.nil_append, List.length_nil, Nat.zero_add, ptrs, Build.mk.injEq, and_true]
  rw [List.range_succ, List.map_append, List.map_singleton, List.take_of_length_le (by simp), List.length_flatten]

theorem range_append {α : Type*} (a b : Nat) (f g : Nat → α) :
    (List.range a).map f ++ (List.range b).map g = (List.range (a + b)).map fun i => if i < a then f i else g (i - a) := by
  rw [List.range_add, List.map_append, List.map_map]
  congr 1
  · exact List.map_congr_left fun i hi => by rw [if_pos (List.mem_range.1 hi)]
  · exact List.map_congr_left fun i _ => by
      show g i = if a + i < a then _ else g (a + i - a)
      rw [if_neg (by omega), Nat.add_sub_cancel_left]

theorem list_sum_range (n : Nat) (f : Nat → K) : ((List.range n).map f).sum = ∑ i ∈ range n, f i := by
  induction n with
  | zero => simp
  | succ n ih => rw [List.range_succ, List.map_append, List.sum_append, ih, sum_range_succ]; simp

theorem list_sum_filter (n : Nat) (s : Nat → Bool) (f : Nat → K) :
    (((List.range n).filter s).map f).sum = ∑ i ∈ range n, if s i then f i else 0 := by
  induction n with
  | zero => simp
  | succ n ih =>
    rw [List.range_succ, List.filter_append, List.map_append, List.sum_append, ih, sum_range_succ]
    by_cases h : s n <;> simp [h]

/-- a double sum with an indicator of the block -/
theorem sum_block_ite (n : Nat) (len : Nat → Nat) (a : Nat) (f : Nat → Nat → K) :
    ∑ k ∈ range n, ∑ i ∈ range (len k), (if k = a then f k i else 0)
      = if a < n then ∑ i ∈ range (len a), f a i else 0 := by
  have : ∀ k ∈ range n, ∑ i ∈ range (len k), (if k = a then f k i else 0)
      = if k = a then ∑ i ∈ range (len a), f a i else 0 := by
    intro k _
    split
    · rename_i h; subst h; rfl
    · simp
  rw [sum_congr rfl this, sum_ite_eq']
  simp

theorem zip_map {α β : Type*} (l : List Nat) (f : Nat → α) (g : Nat → β) :
    (l.map f).zip (l.map g) = l.map fun i => (f i, g i) := by
  induction l with
  | nil => rfl
  | cons a l ih => simp [ih]

/-! ## `boundOn` -/

theorem boundOn_some (q : Qp K) {k v ii : Nat} (h : boundOn q k v = some ii) :
    ii < (q.st k).nb ∧ (q.st k).idxb ii = v := by
  have h1 := List.find?_some h
  have h2 := List.mem_of_find?_eq_some h
  exact ⟨List.mem_range.1 h2, by simpa using h1⟩

theorem boundOn_none (q : Qp K) {k v : Nat} (h : boundOn q k v = none) : ∀ ii < (q.st k).nb, (q.st k).idxb ii ≠ v := by
  intro ii hi e
  have := List.find?_eq_none.1 h ii (List.mem_range.2 hi)
  simp [e] at this

/-- with at most one bound per variable, the search finds it -/
theorem boundOn_iff (q : Qp K) {k : Nat}
    (hinj : ∀ i < (q.st k).nb, ∀ j < (q.st k).nb, (q.st k).idxb i = (q.st k).idxb j → i = j) {v ii : Nat} :
    boundOn q k v = some ii ↔ ii < (q.st k).nb ∧ (q.st k).idxb ii = v := by
  refine ⟨boundOn_some q, fun ⟨h1, h2⟩ => ?_⟩
  cases e : boundOn q k v with
  | none => exact absurd h2 (boundOn_none q e ii h1)
  | some jj =>
    have := boundOn_some q e
    rw [hinj jj this.1 ii h1 (this.2.trans h2.symm)]

theorem mem_softRows (q : Qp K) {k jj ii : Nat} :
    ii ∈ softRows q k jj ↔ ii < (q.st k).nb + (q.st k).ng ∧ (q.st k).idxs ii = (jj : Int) := by
  simp [softRows]

/-! ## Hessian -/

/-- rows and values of the Hessian column `i` of stage `k` -/
def hR (q : Qp K) (k i : Nat) : List Nat :=
  if i < q.nx k + q.nu k then (List.range (i + 1)).map fun ii => off (nv q) k + ii
  else [off (nv q) k + (q.nx k + q.nu k) + (i - (q.nx k + q.nu k))]
def hV (q : Qp K) (k i : Nat) : List K :=
  if i < q.nx k + q.nu k then (List.range (i + 1)).map fun ii => (q.st k).H i ii
  else [(q.st k).Z (i - (q.nx k + q.nu k))]

theorem nv_eq (q : Qp K) (k : Nat) : nv q k = q.nx k + q.nu k + 2 * (q.st k).ns := by
  show q.nu k + q.nx k + 2 * (q.st k).ns = _
  omega

theorem hessRows_blocks (q : Qp K) : (List.range (q.N + 1)).flatMap (hessRows q) = blocks (nv q) (hR q) (q.N + 1) := by
  simp only [blocks]
  congr 1; funext k
  rw [hessRows, range_append, nv_eq]
  rfl

theorem hessVals_blocks (q : Qp K) : (List.range (q.N + 1)).flatMap (hessVals q) = blocks (nv q) (hV q) (q.N + 1) := by
  simp only [blocks]
  congr 1; funext k
  rw [hessVals, range_append, nv_eq]
  rfl

theorem blocks_map {α β : Type*} (len : Nat → Nat) (g : Nat → Nat → α) (n : Nat) (f : α → β) :
    (blocks len g n).map f = blocks len (fun k i => f (g k i)) n := by
  simp [blocks, List.map_flatMap, List.map_map, Function.comp_def]

theorem blocks_congr {α : Type*} (len : Nat → Nat) (g g' : Nat → Nat → α) (n : Nat)
    (h : ∀ k < n, ∀ i < len k, g k i = g' k i) : blocks len g n = blocks len g' n := by
  induction n with
  | zero => rfl
  | succ n ih =>
    rw [blocks_succ, blocks_succ, ih fun k hk => h k (by omega)]
    congr 1
    exact List.map_congr_left fun i hi => h n (by omega) i (List.mem_range.1 hi)

theorem mem_blocks {α : Type*} (len : Nat → Nat) (g : Nat → Nat → α) (n : Nat) (x : α) :
    x ∈ blocks len g n ↔ ∃ k < n, ∃ i < len k, g k i = x := by
  simp [blocks]

/-- a matrix written by the two passes -/
def mat (q : Qp K) (R : Nat → Nat → List Nat) (V : Nat → Nat → List K) : Csc K :=
  ⟨ptrs (blocks (nv q) R (q.N + 1)), (blocks (nv q) R (q.N + 1)).flatten, (blocks (nv q) V (q.N + 1)).flatten⟩

theorem mat_lengths (q : Qp K) (R : Nat → Nat → List Nat) (V : Nat → Nat → List K)
    (h : ∀ k ≤ q.N, ∀ i < nv q k, (R k i).length = (V k i).length) :
    (blocks (nv q) R (q.N + 1)).map List.length = (blocks (nv q) V (q.N + 1)).map List.length := by
  rw [blocks_map, blocks_map]
  exact blocks_congr _ _ _ _ fun k hk i hi => h k (by omega) i hi

theorem mat_col (q : Qp K) (R : Nat → Nat → List Nat) (V : Nat → Nat → List K)
    (h : ∀ k ≤ q.N, ∀ i < nv q k, (R k i).length = (V k i).length) {k i : Nat} (hk : k ≤ q.N) (hi : i < nv q k) :
    (mat q R V).col (off (nv q) k + i) = (R k i).zip (V k i) := by
  refine col_of_cols _ _ (mat_lengths q R V h) ?_ _ _ (blocks_get _ _ _ (by omega) hi) (blocks_get _ _ _ (by omega) hi)
  rw [blocks_length]
  have := off_block (nv q) (show k < q.N + 1 by omega)
  omega

theorem mat_valid (q : Qp K) (R : Nat → Nat → List Nat) (V : Nat → Nat → List K)
    (h : ∀ k ≤ q.N, ∀ i < nv q k, (R k i).length = (V k i).length) (m : Nat)
    (hm : ∀ k ≤ q.N, ∀ i < nv q k, (∀ r ∈ R k i, r < m) ∧ (R k i).Nodup) :
    (mat q R V).Valid m (numVars q) := by
  have := valid_of_cols _ _ (mat_lengths q R V h) m (by
    intro r hr
    obtain ⟨k, hk, i, hi, e⟩ := (mem_blocks _ _ _ _).1 hr
    rw [← e]
    exact hm k (by omega) i hi)
  rw [blocks_length] at this
  exact this

theorem hlen (q : Qp K) (k i : Nat) : (hR q k i).length = (hV q k i).length := by
  unfold hR hV; split <;> simp

theorem hess_mat (q : Qp K) :
    (⟨(hessStructure q).p, (hessStructure q).i, hessData q⟩ : Csc K) = mat q (hR q) (hV q) := by
  rw [hessStructure, hessData, build_eq, hessRows_blocks, hessVals_blocks]; rfl

/-- entries of the stored upper triangle -/
theorem hess_entry (q : Qp K) {k i k' i' : Nat} (hk : k ≤ q.N) (hi : i < nv q k) (hk' : k' ≤ q.N) (hi' : i' < nv q k') :
    (mat q (hR q) (hV q)).entry (off (nv q) k' + i') (off (nv q) k + i)
      = if k' = k then (if i < q.nx k + q.nu k then (if i' ≤ i then (q.st k).H i i' else 0)
          else if i' = i then (q.st k).Z (i - (q.nx k + q.nu k)) else 0) else 0 := by
  have hb : off (nv q) k' + i' < off (nv q) k ∨ off (nv q) k + nv q k ≤ off (nv q) k' + i' ∨ k' = k := by
    rcases Nat.lt_trichotomy k k' with e | e | e
    · have := off_block (nv q) e; omega
    · exact Or.inr (Or.inr e.symm)
    · have := off_block (nv q) e; omega
  show rowSum ((mat q (hR q) (hV q)).col _) _ = _
  rw [mat_col q _ _ (fun k _ i _ => hlen q k i) hk hi]
  unfold hR hV
  by_cases hc : i < q.nx k + q.nu k
  · rw [if_pos hc, if_pos hc, zip_map, rowSum_block]
    by_cases e : k' = k
    · subst e
      rw [if_pos rfl, if_pos hc]
      have : (off (nv q) k' ≤ off (nv q) k' + i' ∧ off (nv q) k' + i' < off (nv q) k' + (i + 1)) ↔ i' ≤ i := by omega
      simp only [this, Nat.add_sub_cancel_left]
    · rw [if_neg e, if_neg (by have := nv_eq q k; omega)]
  · rw [if_neg hc, if_neg hc]
    show rowSum [(_, _)] _ = _
    rw [rowSum_cons, rowSum_nil, add_zero]
    by_cases e : k' = k
    · subst e
      rw [if_pos rfl, if_neg hc]
      have : (off (nv q) k' + (q.nx k' + q.nu k') + (i - (q.nx k' + q.nu k')) = off (nv q) k' + i') ↔ i' = i := by omega
      simp only [this]
    · rw [if_neg e, if_neg (by have := nv_eq q k; omega)]

/-- `P v` -/
theorem hess_mul (q : Qp K) (hsym : ∀ k ≤ q.N, ∀ i < q.nx k + q.nu k, ∀ j < q.nx k + q.nu k, (q.st k).H i j = (q.st k).H j i)
    (v : Nat → K) {k i : Nat} (hk : k ≤ q.N) (hi : i < nv q k) :
    (mat q (hR q) (hV q)).symMul (numVars q) v (off (nv q) k + i)
      = if i < q.nx k + q.nu k then ∑ j ∈ range (q.nx k + q.nu k), (q.st k).H i j * v (off (nv q) k + j)
        else (q.st k).Z (i - (q.nx k + q.nu k)) * v (off (nv q) k + i) := by
  unfold Csc.symMul numVars
  rw [sum_off]
  have key : ∀ k' ∈ range (q.N + 1), ∀ j ∈ range (nv q k'),
      (mat q (hR q) (hV q)).symEntry (off (nv q) k + i) (off (nv q) k' + j) * v (off (nv q) k' + j)
        = if k' = k then (if i < q.nx k + q.nu k then (if j < q.nx k + q.nu k then (q.st k).H i j * v (off (nv q) k + j) else 0)
            else if j = i then (q.st k).Z (i - (q.nx k + q.nu k)) * v (off (nv q) k + i) else 0) else 0 := by
    intro k' hk' j hj
    have hk'' : k' ≤ q.N := by have := Finset.mem_range.1 hk'; omega
    have hj' := Finset.mem_range.1 hj
    unfold Csc.symEntry
    rw [hess_entry q hk'' hj' hk hi, hess_entry q hk hi hk'' hj']
    by_cases e : k' = k
    · subst e
      simp only [if_true]
      by_cases hc : i < q.nx k' + q.nu k'
      · simp only [if_pos hc]
        by_cases hc' : j < q.nx k' + q.nu k'
        · simp only [if_pos hc']
          by_cases hle : i ≤ j
          · rw [if_pos (by omega), if_pos hle, hsym k' hk'' j hc' i hc]
          · rw [if_neg (by omega), if_pos (by omega)]
        · simp only [if_neg hc']
          rw [if_pos (by omega), if_neg (by omega), zero_mul]
      · simp only [if_neg hc]
        by_cases e : j = i
        · subst e
          simp only [Nat.le_refl, if_true, if_neg hc]
        · have e' : ¬ i = j := fun h => e h.symm
          simp only [if_neg e, if_neg e']
          by_cases hc' : j < q.nx k' + q.nu k'
          · rw [if_neg (by omega), zero_mul]
          · simp only [if_neg hc', ite_self, zero_mul]
    · have e' : ¬ k = k' := fun h => e h.symm
      simp only [if_neg e, if_neg e', ite_self, zero_mul]
  rw [sum_congr rfl fun k' hk' => sum_congr rfl (key k' hk'), sum_block_ite, if_pos (by omega)]
  by_cases hc : i < q.nx k + q.nu k
  · simp only [if_pos hc]
    rw [nv_eq, Finset.sum_range_add, sum_congr rfl fun j hj => if_pos (Finset.mem_range.1 hj)]
    simp
  · simp only [if_neg hc]
    rw [sum_ite_eq', if_pos (Finset.mem_range.2 hi)]

theorem gradient_get (q : Qp K) {k i : Nat} (hk : k ≤ q.N) (hi : i < nv q k) :
    (gradient q).getD (off (nv q) k + i) 0 = (q.st k).g i := by
  have : gradient q = blocks (nv q) (fun k => (q.st k).g) (q.N + 1) := rfl
  rw [this, List.getD_eq_getElem?_getD, blocks_get _ _ _ (by omega) hi]; rfl

end Acados.SparseQp
