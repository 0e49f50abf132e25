import Verif.Lemmas.Clarabel
import Mathlib.Algebra.Order.BigOperators.Group.Finset
import Mathlib.Algebra.BigOperators.NatAntidiagonal
import Mathlib.Algebra.BigOperators.Ring.Nat
import Mathlib.Tactic.Linarith
/-! # Lemmas about the constraint matrix for Clarabel: transposed product, sizes, right-hand side -/
namespace Acados.SparseQp.Clarabel
open Acados.QpScal Acados.Csc Finset
variable {K : Type*} [Field K] [LinearOrder K]

theorem slkStart_le (q : Qp K) : slkStart q ≤ numConstr q := by rw [numConstr_eq]; omega
theorem conStart_le (q : Qp K) : conStart q ≤ slkStart q := Nat.le_add_left _ _

theorem cE_lt (q : Qp K) {k i : Nat} (hk : k ≤ q.N) (hi : i < nv q k) : ∀ e ∈ cE q k i, e.1 < numConstr q := by
  have h1 := slkStart_le q
  have h2 := conStart_le q
  have h3 := slk_lt q hk
  have h4 : slkLen q k = 2 * (q.st k).ns := rfl
  have h5 := con_lt q hk
  have h6 : conLen q k = 2 * (q.st k).nb + 2 * (q.st k).ng := rfl
  have h7 : nv q k = q.nu k + q.nx k + 2 * (q.st k).ns := rfl
  intro e he
  unfold cE pick at he
  split at he
  · split at he
    · split at he
      · have := varE_lt q hk e he; omega
      · rcases List.mem_append.1 he with he | he
        · have := eyeE_lt q hk (by omega) e he; omega
        · have := varE_lt q hk e he; omega
    · rcases List.mem_append.1 he with he | he
      · obtain ⟨ii, hii, rfl⟩ := List.mem_map.1 he
        have := ((mem_softRows q).1 hii).1
        dsimp only; omega
      · rw [List.mem_singleton.1 he]; dsimp only; omega
  · rcases List.mem_append.1 he with he | he
    · obtain ⟨ii, hii, rfl⟩ := List.mem_map.1 he
      have := ((mem_softRows q).1 hii).1
      dsimp only; omega
    · rw [List.mem_singleton.1 he]; dsimp only; omega

/-- weighted sum of a column -/
def dot (l : List (Nat × K)) (z : Nat → K) : K := (l.map fun e => e.2 * z e.1).sum

theorem dot_append (l l' : List (Nat × K)) (z : Nat → K) : dot (l ++ l') z = dot l z + dot l' z := by
  simp [dot, List.sum_append]
theorem dot_block (n : Nat) (f : Nat → Nat) (g : Nat → K) (z : Nat → K) :
    dot ((List.range n).map fun i => (f i, g i)) z = ∑ i ∈ range n, g i * z (f i) := by
  simp only [dot, List.map_map]
  exact list_sum_range n _
@[simp] theorem dot_nil (z : Nat → K) : dot [] z = 0 := rfl
@[simp] theorem dot_one (e : Nat × K) (z : Nat → K) : dot [e] z = e.2 * z e.1 := by simp [dot]

theorem mulTr_eq (q : Qp K) (z : Nat → K) {k i : Nat} (hk : k ≤ q.N) (hi : i < nv q k) :
    (mat q (cR q) (cV q)).mulTr (numConstr q) z (off (nv q) k + i) = dot (cE q k i) z := by
  unfold Csc.mulTr
  rw [sum_congr rfl fun r _ => by
    rw [show (mat q (cR q) (cV q)).entry r (off (nv q) k + i) = rowSum ((mat q (cR q) (cV q)).col (off (nv q) k + i)) r from rfl,
      mat_col q _ _ (fun k _ i _ => clen q k i) hk hi, czip]]
  exact sum_rowSum _ _ _ (cE_lt q hk hi)

theorem dot_bnd (q : Qp K) (hinj : ∀ k, ∀ i < (q.st k).nb, ∀ j < (q.st k).nb, (q.st k).idxb i = (q.st k).idxb j → i = j)
    (k v : Nat) (z : Nat → K) :
    dot (bndE q k v) z = - ∑ j ∈ range (q.st k).nb, if (q.st k).idxb j = v then
      z (c0 q k + j) - z (c0 q k + ((q.st k).nb + (q.st k).ng + j)) else 0 := by
  unfold bndE
  cases h : boundOn q k v with
  | some ii =>
    have hb := (boundOn_iff q (hinj k)).1 h
    rw [sum_eq_single_of_mem ii (Finset.mem_range.2 hb.1), if_pos hb.2]
    · simp only [dot, List.map_cons, List.map_nil, List.sum_cons, List.sum_nil, Nat.add_assoc]; ring
    · intro j hj hne
      rw [if_neg]
      intro e
      exact hne (hinj k j (Finset.mem_range.1 hj) ii hb.1 (e.trans hb.2.symm))
  | none =>
    rw [sum_eq_zero, neg_zero]; rfl
    intro j hj
    rw [if_neg (boundOn_none q h j (Finset.mem_range.1 hj))]

theorem dot_var (q : Qp K) (hinj : ∀ k, ∀ i < (q.st k).nb, ∀ j < (q.st k).nb, (q.st k).idxb i = (q.st k).idxb j → i = j)
    (k v : Nat) (z : Nat → K) :
    dot (varE q k v) z =
      (if k < q.N then ∑ j ∈ range (q.nx (k + 1)), (q.st k).BAbt v j * z (off (dynLen q) k + j) else 0)
      - (∑ j ∈ range (q.st k).nb, if (q.st k).idxb j = v then
          z (c0 q k + j) - z (c0 q k + ((q.st k).nb + (q.st k).ng + j)) else 0)
      - ∑ j ∈ range (q.st k).ng, (q.st k).DCt v j *
          (z (c0 q k + ((q.st k).nb + j)) - z (c0 q k + ((q.st k).nb + (q.st k).ng + ((q.st k).nb + j)))) := by
  unfold varE
  rw [dot_append, dot_append, dot_append, dot_bnd q hinj, dot_block, dot_block]
  have e1 : dot (if k < q.N then (List.range (q.nx (k + 1))).map fun ii => (off (dynLen q) k + ii, (q.st k).BAbt v ii) else []) z
      = if k < q.N then ∑ j ∈ range (q.nx (k + 1)), (q.st k).BAbt v j * z (off (dynLen q) k + j) else 0 := by
    split
    · rw [dot_block]
    · rfl
  have e2 : ∑ j ∈ range (q.st k).ng, (q.st k).DCt v j *
          (z (c0 q k + ((q.st k).nb + j)) - z (c0 q k + ((q.st k).nb + (q.st k).ng + ((q.st k).nb + j))))
      = - ((∑ i ∈ range (q.st k).ng, - (q.st k).DCt v i * z (c0 q k + (q.st k).nb + i)) +
        ∑ i ∈ range (q.st k).ng, (q.st k).DCt v i * z (c0 q k + 2 * (q.st k).nb + (q.st k).ng + i)) := by
    rw [← sum_add_distrib, ← sum_neg_distrib]
    refine sum_congr rfl fun j _ => ?_
    rw [show c0 q k + ((q.st k).nb + (q.st k).ng + ((q.st k).nb + j)) = c0 q k + 2 * (q.st k).nb + (q.st k).ng + j by omega,
      show c0 q k + ((q.st k).nb + j) = c0 q k + (q.st k).nb + j by omega]
    ring
  rw [e1, e2]; ring

theorem dot_soft (q : Qp K) (k jj base : Nat) (z : Nat → K) :
    dot ((softRows q k jj).map fun ii => (base + ii, (-1 : K))) z
      = - ∑ r ∈ range (q.st k).m, if (q.st k).idxs r = (jj : Int) then z (base + r) else 0 := by
  unfold dot softRows
  rw [List.map_map, ← sum_neg_distrib]
  rw [show ((fun e : Nat × K => e.2 * z e.1) ∘ fun ii => (base + ii, (-1 : K))) = fun ii => -1 * z (base + ii) from rfl,
    list_sum_filter]
  refine sum_congr rfl fun r _ => ?_
  by_cases h : (q.st k).idxs r = (jj : Int)
  · simp [h]
  · simp [h]

/-! ## duplicate-free columns -/

theorem nodup_map_add (l : List Nat) (hl : l.Nodup) (b : Nat) : (l.map fun i => b + i).Nodup :=
  hl.map fun x y h => by simpa using h

theorem mem_varRows (q : Qp K) {k v : Nat} {e : Nat} (he : e ∈ varRows q k v) :
    (k < q.N ∧ off (dynLen q) k ≤ e ∧ e < conStart q) ∨ (c0 q k ≤ e ∧ e < c0 q k + conLen q k) := by
  have hl : conLen q k = 2 * (q.st k).nb + 2 * (q.st k).ng := rfl
  have hc : conStart q + off (conLen q) k = c0 q k := rfl
  unfold varRows at he
  simp only [List.mem_append] at he
  rcases he with ((he | he) | he) | he
  · split at he
    · rename_i hN
      obtain ⟨ii, hii, rfl⟩ := List.mem_map.1 he
      exact Or.inl ⟨hN, by omega, dyn_lt q hN (List.mem_range.1 hii)⟩
    · simp at he
  · cases hb : boundOn q k v with
    | none => rw [hb] at he; simp at he
    | some ii =>
      rw [hb] at he
      have := (boundOn_some q hb).1
      simp only [List.mem_cons, List.not_mem_nil, or_false] at he
      rcases he with rfl | rfl <;> right <;> omega
  · obtain ⟨ii, hii, rfl⟩ := List.mem_map.1 he
    have := List.mem_range.1 hii
    right; omega
  · obtain ⟨ii, hii, rfl⟩ := List.mem_map.1 he
    have := List.mem_range.1 hii
    right; omega

theorem varRows_nodup (q : Qp K) (k v : Nat) (hk : k ≤ q.N) : (varRows q k v).Nodup := by
  have hc : conStart q + off (conLen q) k = c0 q k := rfl
  have hc' : conStart q ≤ c0 q k := Nat.le_add_right _ _
  have hd : ∀ e ∈ (if k < q.N then (List.range (q.nx (k + 1))).map fun ii => off (dynLen q) k + ii else []), e < conStart q := by
    intro e he
    split at he
    · rename_i hN
      obtain ⟨ii, hii, rfl⟩ := List.mem_map.1 he
      exact dyn_lt q hN (List.mem_range.1 hii)
    · simp at he
  have hdn : (if k < q.N then (List.range (q.nx (k + 1))).map fun ii => off (dynLen q) k + ii else []).Nodup := by
    split
    · exact nodup_map_add _ List.nodup_range _
    · exact List.nodup_nil
  unfold varRows
  simp only [hc]
  rw [List.nodup_append, List.nodup_append, List.nodup_append]
  refine ⟨⟨⟨hdn, ?_, ?_⟩, nodup_map_add _ List.nodup_range _, ?_⟩, nodup_map_add _ List.nodup_range _, ?_⟩
  · cases hb : boundOn q k v with
    | none => simp
    | some ii =>
      have := (boundOn_some q hb).1
      simp only [List.nodup_cons, List.mem_singleton, List.not_mem_nil, not_false_eq_true, List.nodup_nil, and_true]
      omega
  · intro a ha b hb
    have := hd a ha
    cases h : boundOn q k v with
    | none => rw [h] at hb; simp at hb
    | some ii =>
      rw [h] at hb
      simp only [List.mem_cons, List.not_mem_nil, or_false] at hb
      rcases hb with rfl | rfl <;> omega
  · intro a ha b hb
    obtain ⟨jj, hjj, rfl⟩ := List.mem_map.1 hb
    have hj := List.mem_range.1 hjj
    rcases List.mem_append.1 ha with ha | ha
    · have := hd a ha; omega
    · cases h : boundOn q k v with
      | none => rw [h] at ha; simp at ha
      | some ii =>
        rw [h] at ha
        have := (boundOn_some q h).1
        simp only [List.mem_cons, List.not_mem_nil, or_false] at ha
        rcases ha with rfl | rfl <;> omega
  · intro a ha b hb
    obtain ⟨jj, hjj, rfl⟩ := List.mem_map.1 hb
    have hj := List.mem_range.1 hjj
    rcases List.mem_append.1 ha with ha | ha
    · rcases List.mem_append.1 ha with ha | ha
      · have := hd a ha; omega
      · cases h : boundOn q k v with
        | none => rw [h] at ha; simp at ha
        | some ii =>
          rw [h] at ha
          have := (boundOn_some q h).1
          simp only [List.mem_cons, List.not_mem_nil, or_false] at ha
          rcases ha with rfl | rfl <;> omega
    · obtain ⟨ii, hii, rfl⟩ := List.mem_map.1 ha
      have := List.mem_range.1 hii
      omega

theorem cR_nodup (q : Qp K) {k i : Nat} (hk : k ≤ q.N) (hi : i < nv q k) : (cR q k i).Nodup := by
  have hl : conLen q k = 2 * (q.st k).nb + 2 * (q.st k).ng := rfl
  have h5 := con_lt q hk
  have h7 : nv q k = q.nu k + q.nx k + 2 * (q.st k).ns := rfl
  have hc : conStart q + off (conLen q) k = c0 q k := rfl
  have hs : slkStart q + off (slkLen q) k = s0 q k := rfl
  have hs' : slkStart q ≤ s0 q k := Nat.le_add_right _ _
  have hc' : conStart q ≤ c0 q k := Nat.le_add_right _ _
  unfold cR pick
  split
  · split
    · split
      · exact varRows_nodup q k _ hk
      · unfold rowsX
        rw [List.nodup_append]
        refine ⟨by split <;> simp, varRows_nodup q k _ hk, ?_⟩
        intro a ha b hb
        split at ha
        · rename_i h0
          rw [List.mem_singleton.1 ha, eye_row q h0 hk]
          have hlt := dyn_lt q (k := k - 1) (j := i - q.nu k) (by omega) (by rw [Nat.sub_add_cancel h0]; omega)
          have e1 : dynLen q (k - 1) = q.nx k := by
            rw [show dynLen q (k - 1) = q.nx (k - 1 + 1) from if_pos (by omega), Nat.sub_add_cancel h0]
          have hbl := off_block (dynLen q) (show k - 1 < k by omega)
          rcases mem_varRows q hb with h | h <;> omega
        · simp at ha
    · unfold rowsSl
      simp only [hc, hs]
      rw [List.nodup_append]
      refine ⟨nodup_map_add _ (List.nodup_range.filter _) _, by simp, ?_⟩
      intro a ha b hb
      obtain ⟨ii, hii, rfl⟩ := List.mem_map.1 ha
      have := ((mem_softRows q).1 hii).1
      rw [List.mem_singleton.1 hb]; omega
  · unfold rowsSu
    simp only [hc, hs]
    rw [List.nodup_append]
    refine ⟨nodup_map_add _ (List.nodup_range.filter _) _, by simp, ?_⟩
    intro a ha b hb
    obtain ⟨ii, hii, rfl⟩ := List.mem_map.1 ha
    have := ((mem_softRows q).1 hii).1
    rw [List.mem_singleton.1 hb]; omega

theorem mem_cR_lt (q : Qp K) {k i : Nat} (hk : k ≤ q.N) (hi : i < nv q k) : ∀ r ∈ cR q k i, r < numConstr q := by
  intro r hr
  have : r ∈ (cE q k i).map Prod.fst := by
    rw [← czip, List.map_fst_zip (by rw [clen])]; exact hr
  obtain ⟨e, he, rfl⟩ := List.mem_map.1 this
  exact cE_lt q hk hi e he

/-! ## numbers of nonzeros -/

theorem blocks_flatten_length {α : Type*} (len : Nat → Nat) (g : Nat → Nat → List α) (n : Nat) :
    (blocks len g n).flatten.length = off (fun k => ∑ i ∈ range (len k), (g k i).length) n := by
  induction n with
  | zero => rfl
  | succ n ih =>
    rw [blocks_succ, List.flatten_append, List.length_append, ih, off]
    congr 1
    induction len n with
    | zero => rfl
    | succ m ih' =>
      rw [List.range_succ, List.map_append, List.flatten_append, List.length_append, ih', sum_range_succ]
      simp

theorem off_congr (f g : Nat → Nat) (n : Nat) (h : ∀ k < n, f k = g k) : off f n = off g n := by
  induction n with
  | zero => rfl
  | succ n ih => rw [off, off, ih fun k hk => h k (by omega), h n (by omega)]

theorem off_le (f g : Nat → Nat) (n : Nat) (h : ∀ k < n, f k ≤ g k) : off f n ≤ off g n := by
  induction n with
  | zero => exact Nat.le_refl _
  | succ n ih => exact Nat.add_le_add (ih fun k hk => h k (by omega)) (h n (by omega))

theorem off_add (f g : Nat → Nat) (n : Nat) : off (fun k => f k + g k) n = off f n + off g n := by
  induction n with
  | zero => rfl
  | succ n ih => simp only [off] at *; omega

theorem hess_stage_length (q : Qp K) (k : Nat) :
    ∑ i ∈ range (nv q k), (hV q k i).length = (q.nu k + q.nx k) * (q.nu k + q.nx k + 1) / 2 + 2 * (q.st k).ns := by
  rw [nv_eq, Finset.sum_range_add]
  congr 1
  · rw [sum_congr rfl fun i hi => show (hV q k i).length = i + 1 by
      unfold hV; rw [if_pos (Finset.mem_range.1 hi)]; simp]
    have := Finset.sum_range_id_mul_two (q.nx k + q.nu k + 1)
    rw [sum_range_succ'] at this
    rw [show q.nu k + q.nx k = q.nx k + q.nu k by omega]
    simp only [add_zero, Nat.add_sub_cancel] at this
    rw [Nat.mul_comm (q.nx k + q.nu k), ← this]
    simp
  · rw [sum_congr rfl fun i hi => show (hV q k (q.nx k + q.nu k + i)).length = 1 by
      unfold hV; rw [if_neg (by omega)]; simp]
    simp

theorem hessData_length (q : Qp K) : (hessData q).length = nnzmaxP q := by
  rw [hessData, hessVals_blocks, blocks_flatten_length]
  exact off_congr _ _ _ fun k _ => hess_stage_length q k

theorem hessStructure_length (q : Qp K) : (hessStructure q).i.length = nnzmaxP q := by
  rw [hessStructure, build_eq, hessRows_blocks, blocks_flatten_length]
  refine off_congr _ _ _ fun k _ => ?_
  rw [← hess_stage_length q k]
  exact sum_congr rfl fun i _ => hlen q k i

theorem nx_le_nnzmaxP (q : Qp K) {k : Nat} (hk : k ≤ q.N) : q.nx k ≤ nnzmaxP q := by
  have := off_block (fun k => (q.nu k + q.nx k) * (q.nu k + q.nx k + 1) / 2 + 2 * (q.st k).ns) (show k < q.N + 1 by omega)
  have h2 : q.nx k ≤ (q.nu k + q.nx k) * (q.nu k + q.nx k + 1) / 2 := by
    rw [Nat.le_div_iff_mul_le (by omega)]
    rcases Nat.eq_zero_or_pos (q.nu k + q.nx k) with h | h
    · have : q.nx k = 0 := by omega
      rw [this]; omega
    · nlinarith
  unfold nnzmaxP
  omega

theorem conStructure_length (q : Qp K) : (conStructure q).i.length = (conData q).length := by
  have e := con_mat q
  have h1 : (conStructure q).i = (mat q (cR q) (cV q)).i := congrArg Csc.i e
  have h2 : conData q = (mat q (cR q) (cV q)).x := congrArg Csc.x e
  rw [h1, h2]
  show (blocks _ _ _).flatten.length = (blocks _ _ _).flatten.length
  rw [List.length_flatten, List.length_flatten, mat_lengths q _ _ fun k _ i _ => clen q k i]

/-- bounds on the number of nonzeros of a column of `[u; x]` -/
theorem varRows_length (q : Qp K) (k v : Nat) :
    (varRows q k v).length = dynLen q k + 2 * (if (boundOn q k v).isSome then 1 else 0) + 2 * (q.st k).ng := by
  unfold varRows dynLen
  cases boundOn q k v <;> by_cases h : k < q.N <;> simp [h] <;> omega

/-- at most `nb` variables have a bound -/
theorem bounded_le (q : Qp K) (k n : Nat) :
    ∑ v ∈ range n, (if (boundOn q k v).isSome then 1 else 0) ≤ (q.st k).nb := by
  rw [← Finset.card_filter]
  have : ((range n).filter fun v => (boundOn q k v).isSome).card ≤ (range (q.st k).nb).card := by
    refine Finset.card_le_card_of_injOn (fun v => (boundOn q k v).getD 0) ?_ ?_
    · intro v hv
      have hv' := (Finset.mem_filter.1 hv).2
      obtain ⟨ii, hii⟩ := Option.isSome_iff_exists.1 hv'
      show (boundOn q k v).getD 0 ∈ _
      rw [hii]
      exact Finset.mem_coe.2 (Finset.mem_range.2 (boundOn_some q hii).1)
    · intro v hv v' hv' he
      obtain ⟨ii, hii⟩ := Option.isSome_iff_exists.1 (Finset.mem_filter.1 hv).2
      obtain ⟨jj, hjj⟩ := Option.isSome_iff_exists.1 (Finset.mem_filter.1 hv').2
      simp only [hii, hjj, Option.getD_some] at he
      rw [← (boundOn_some q hii).2, ← (boundOn_some q hjj).2, he]
  simpa using this

theorem cR_stage_length (q : Qp K) (k : Nat) :
    ∑ i ∈ range (nv q k), (cR q k i).length ≤
      2 * (q.st k).nb + 2 * (q.st k).ng * q.nx k + 2 * (q.st k).ng * q.nu k +
      2 * ((q.st k).nb + (q.st k).ng) * 2 * (q.st k).ns + 2 * (q.st k).ns +
      (dynLen q k * q.nx k + dynLen q k * q.nu k) + (if 0 < k then q.nx k else 0) := by
  have hnv : nv q k = q.nu k + q.nx k + (q.st k).ns + (q.st k).ns := by unfold nv; omega
  rw [hnv, Finset.sum_range_add, Finset.sum_range_add, Finset.sum_range_add]
  have h1 : ∑ i ∈ range (q.nu k), (cR q k i).length = ∑ i ∈ range (q.nu k), (varRows q k i).length := by
    refine sum_congr rfl fun i hi => ?_
    have := Finset.mem_range.1 hi
    unfold cR pick
    rw [if_pos (by omega), if_pos (by omega), if_pos this]; rfl
  have h2 : ∑ j ∈ range (q.nx k), (cR q k (q.nu k + j)).length
      = ∑ j ∈ range (q.nx k), (varRows q k (q.nu k + j)).length + (if 0 < k then q.nx k else 0) := by
    rw [show (if 0 < k then q.nx k else 0) = ∑ j ∈ range (q.nx k), (if 0 < k then 1 else 0) by
      split <;> simp, ← sum_add_distrib]
    refine sum_congr rfl fun i hi => ?_
    have := Finset.mem_range.1 hi
    unfold cR pick
    rw [if_pos (by omega), if_pos (by omega), if_neg (by omega), Nat.add_sub_cancel_left, rowsX, List.length_append]
    split <;> simp <;> omega
  have hsoft : ∀ jj, (softRows q k jj).length ≤ (q.st k).nb + (q.st k).ng := by
    intro jj
    have := List.length_filter_le (fun ii => (q.st k).idxs ii == (jj : Int)) (List.range ((q.st k).nb + (q.st k).ng))
    rw [List.length_range] at this
    exact this
  have h3 : ∑ j ∈ range (q.st k).ns, (cR q k (q.nu k + q.nx k + j)).length ≤ (q.st k).ns * ((q.st k).nb + (q.st k).ng + 1) := by
    refine (Finset.sum_le_card_nsmul _ _ ((q.st k).nb + (q.st k).ng + 1) fun j hj => ?_).trans_eq (by simp)
    have := Finset.mem_range.1 hj
    unfold cR pick
    rw [if_pos (by omega), if_neg (by omega), rowsSl]
    simpa using hsoft _
  have h4 : ∑ j ∈ range (q.st k).ns, (cR q k (q.nu k + q.nx k + (q.st k).ns + j)).length
      ≤ (q.st k).ns * ((q.st k).nb + (q.st k).ng + 1) := by
    refine (Finset.sum_le_card_nsmul _ _ ((q.st k).nb + (q.st k).ng + 1) fun j hj => ?_).trans_eq (by simp)
    have := Finset.mem_range.1 hj
    unfold cR pick
    rw [if_neg (by omega), rowsSu]
    simpa using hsoft _
  have h5 : ∑ i ∈ range (q.nu k), (varRows q k i).length + ∑ j ∈ range (q.nx k), (varRows q k (q.nu k + j)).length
      ≤ (q.nu k + q.nx k) * (dynLen q k + 2 * (q.st k).ng) + 2 * (q.st k).nb := by
    rw [← Finset.sum_range_add (fun i => (varRows q k i).length)]
    simp only [varRows_length, sum_add_distrib, ← mul_sum]
    have := bounded_le q k (q.nu k + q.nx k)
    simp only [sum_const, card_range, smul_eq_mul]
    nlinarith
  rw [h1, h2]
  nlinarith

/-- the index and value arrays of the constraint matrix fit into the allocated memory -/
theorem conStructure_le (q : Qp K) : (conStructure q).i.length ≤ nnzmaxA q := by
  have h1 : (conStructure q).i = (mat q (cR q) (cV q)).i := congrArg Csc.i (con_mat q)
  rw [h1]
  show (blocks _ _ _).flatten.length ≤ _
  rw [blocks_flatten_length]
  refine (off_le _ _ _ fun k _ => cR_stage_length q k).trans ?_
  rw [off_add]
  have hshift : off (fun k => if 0 < k then q.nx k else 0) (q.N + 1) = off (dynLen q) (q.N + 1) := by
    rw [dyn_last]
    have : ∀ n, n ≤ q.N → off (fun k => if 0 < k then q.nx k else 0) (n + 1) = off (dynLen q) n := by
      intro n
      induction n with
      | zero => intro _; rfl
      | succ n ih =>
        intro hn
        rw [off, ih (by omega), off]
        simp only [Nat.zero_lt_succ, if_true]
        rw [show dynLen q n = q.nx (n + 1) from if_pos (by omega)]
    exact this _ (Nat.le_refl _)
  rw [hshift, ← off_add]
  refine off_le _ _ _ fun k hk => ?_
  unfold dynLen
  split <;> nlinarith

end Acados.SparseQp.Clarabel
