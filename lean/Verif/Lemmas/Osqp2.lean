import Verif.Lemmas.Osqp
/-! # Sorted columns, memory bounds, products with multipliers and the bound arrays for OSQP -/
namespace Acados.SparseQp.Osqp
open Acados.QpScal Acados.Csc Finset
open Acados.SparseQp.Clarabel (pick pick_map part coef coef_lhs soft_sum dyn_last eye_row dot dot_append dot_block dot_nil dot_one off_congr off_le
  off_add bounded_le blocks_flatten_length hess_stage_length)
variable {K : Type*} [Field K] [LinearOrder K]

/-! ## sorted columns -/

theorem map_sorted (l : List Nat) (hl : l.Pairwise (· < ·)) (f : Nat → Nat) (hf : ∀ a ∈ l, ∀ b ∈ l, a < b → f a < f b) :
    (l.map f).Pairwise (· < ·) := by
  rw [List.pairwise_map]
  exact hl.imp_of_mem fun ha hb h => hf _ ha _ hb h

theorem softG_sorted (q : Qp K) (k : Nat) : (softG q k).Pairwise (· < ·) := List.pairwise_lt_range.filter _

theorem varRows_sorted (q : Qp K) (k v : Nat) (hk : k ≤ q.N) :
    (varRows q k v).Pairwise (· < ·) ∧ ∀ r ∈ varRows q k v, off (dynLen q) k ≤ r := by
  have hm : (q.st k).m = (q.st k).nb + (q.st k).ng := rfl
  have hcs : off (dynLen q) k ≤ conStart q := off_mono _ (by omega)
  have hd : ∀ r ∈ (if k < q.N then (List.range (q.nx (k + 1))).map fun ii => off (dynLen q) k + ii else []),
      off (dynLen q) k ≤ r ∧ r < conStart q := by
    intro r hr
    split at hr
    · rename_i hN
      obtain ⟨ii, hii, rfl⟩ := List.mem_map.1 hr
      have := List.mem_range.1 hii
      have h2 := addr_dyn_lt q (k := k) (j := ii) ⟨hN, this⟩
      simp only [addr] at h2
      exact ⟨by omega, h2⟩
    · simp at hr
  have hds : (if k < q.N then (List.range (q.nx (k + 1))).map fun ii => off (dynLen q) k + ii else []).Pairwise (· < ·) := by
    split
    · exact map_sorted _ List.pairwise_lt_range _ fun a _ b _ h => by omega
    · exact List.Pairwise.nil
  have hg : ∀ r ∈ (List.range (q.st k).ng).map fun ii => conStart q + off (conLen q) k + ((q.st k).nb + ii),
      conStart q + off (conLen q) k + (q.st k).nb ≤ r ∧ r < conStart q + off (conLen q) k + (q.st k).m := by
    intro r hr
    obtain ⟨ii, hii, rfl⟩ := List.mem_map.1 hr
    have := List.mem_range.1 hii
    omega
  have hgs : ((List.range (q.st k).ng).map fun ii => conStart q + off (conLen q) k + ((q.st k).nb + ii)).Pairwise (· < ·) :=
    map_sorted _ List.pairwise_lt_range _ fun a _ b _ h => by omega
  have hr : ∀ r ∈ (softG q k).map fun ii => conStart q + off (conLen q) k + ((q.st k).nb + (q.st k).ng + (cnt q k (q.st k).nb + cntG q k ii)),
      conStart q + off (conLen q) k + (q.st k).m + cnt q k (q.st k).nb ≤ r := by
    intro r hr
    obtain ⟨ii, hii, rfl⟩ := List.mem_map.1 hr
    omega
  have hrs : ((softG q k).map fun ii =>
      conStart q + off (conLen q) k + ((q.st k).nb + (q.st k).ng + (cnt q k (q.st k).nb + cntG q k ii))).Pairwise (· < ·) := by
    refine map_sorted _ (softG_sorted q k) _ fun a ha b _ h => ?_
    have e1 := cntG_eq q k a
    have e2 := cntG_eq q k b
    have := cnt_lt q (k := k) (a := (q.st k).nb + a) (b := (q.st k).nb + b) (by omega) (List.mem_filter.1 ha).2
    omega
  unfold varRows
  dsimp only
  cases hb : boundOn q k v with
  | none =>
    dsimp only
    simp only [List.append_nil]
    refine ⟨?_, ?_⟩
    · rw [List.pairwise_append, List.pairwise_append]
      refine ⟨⟨hds, hgs, ?_⟩, hrs, ?_⟩
      · intro a ha b hb
        have := hd a ha; have := hg b hb; omega
      · intro a ha b hb
        have := hr b hb
        rcases List.mem_append.1 ha with ha | ha
        · have := hd a ha; omega
        · have := hg a ha; omega
    · intro r h
      simp only [List.mem_append] at h
      rcases h with (h | h) | h
      · exact (hd r h).1
      · have := hg r h; omega
      · have := hr r h; omega
  | some ii =>
    have hii := (boundOn_some q hb).1
    dsimp only
    have hc : ∀ r ∈ (if soft q k ii then [conStart q + off (conLen q) k + ((q.st k).nb + (q.st k).ng + cnt q k ii)] else []),
        conStart q + off (conLen q) k + (q.st k).m ≤ r ∧ r < conStart q + off (conLen q) k + (q.st k).m + cnt q k (q.st k).nb := by
      intro r h
      split at h
      · rename_i hs
        rw [List.mem_singleton.1 h]
        have := cnt_lt q hii hs
        omega
      · simp at h
    have hcs' : (if soft q k ii then [conStart q + off (conLen q) k + ((q.st k).nb + (q.st k).ng + cnt q k ii)] else []).Pairwise (· < ·) := by
      split <;> simp
    refine ⟨?_, ?_⟩
    · rw [List.pairwise_append, List.pairwise_append, List.pairwise_append, List.pairwise_append]
      refine ⟨⟨⟨⟨hds, by simp, ?_⟩, hgs, ?_⟩, hcs', ?_⟩, hrs, ?_⟩
      · intro a ha b hb
        have := hd a ha; rw [List.mem_singleton.1 hb]; omega
      · intro a ha b hb
        have := hg b hb
        rcases List.mem_append.1 ha with ha | ha
        · have := hd a ha; omega
        · rw [List.mem_singleton.1 ha]; omega
      · intro a ha b hb
        have := hc b hb
        simp only [List.mem_append] at ha
        rcases ha with (ha | ha) | ha
        · have := hd a ha; omega
        · rw [List.mem_singleton.1 ha]; omega
        · have := hg a ha; omega
      · intro a ha b hb
        have := hr b hb
        simp only [List.mem_append] at ha
        rcases ha with ((ha | ha) | ha) | ha
        · have := hd a ha; omega
        · rw [List.mem_singleton.1 ha]; omega
        · have := hg a ha; omega
        · have := hc a ha; omega
    · intro r h
      simp only [List.mem_append] at h
      rcases h with (((h | h) | h) | h) | h
      · exact (hd r h).1
      · rw [List.mem_singleton.1 h]; omega
      · have := hg r h; omega
      · have := hc r h; omega
      · have := hr r h; omega

theorem oR_sorted (q : Qp K) (hf : Fits q) {k i : Nat} (hk : k ≤ q.N) (hi : i < nv q k) : (oR q k i).Pairwise (· < ·) := by
  have h7 : nv q k = q.nu k + q.nx k + 2 * (q.st k).ns := rfl
  unfold oR pick
  split
  · split
    · split
      · exact (varRows_sorted q k _ hk).1
      · unfold rowsX
        rw [List.pairwise_append]
        refine ⟨by split <;> simp, (varRows_sorted q k _ hk).1, ?_⟩
        intro a ha b hb
        have h2 := (varRows_sorted q k _ hk).2 b hb
        split at ha
        · rename_i h0
          rw [List.mem_singleton.1 ha, eye_row q h0 hk]
          have h3 := off_block (dynLen q) (show k - 1 < k by omega)
          have h4 : dynLen q (k - 1) = q.nx k := by rw [dynLen_lt q (by omega), Nat.sub_add_cancel h0]
          omega
        · simp at ha
    · unfold rowsSl
      rw [List.pairwise_append]
      refine ⟨map_sorted _ (List.pairwise_lt_range.filter _) _ fun a _ b _ h => by omega, by simp, ?_⟩
      intro a ha b hb
      obtain ⟨ii, hii, rfl⟩ := List.mem_map.1 ha
      rw [List.mem_singleton.1 hb]
      have := addr_con_lt q (ok_con q hk (soft_softRows q hii).1)
      simp only [addr] at this
      omega
  · unfold rowsSu
    rw [List.pairwise_append]
    refine ⟨map_sorted _ (List.pairwise_lt_range.filter _) _ fun a ha b _ h => ?_, by simp, ?_⟩
    · have := cnt_lt q h (soft_softRows q ha).2
      omega
    · intro a ha b hb
      obtain ⟨ii, hii, rfl⟩ := List.mem_map.1 ha
      rw [List.mem_singleton.1 hb]
      have := addr_con_lt q (ok_rep q hf hk (soft_softRows q hii).1 (soft_softRows q hii).2)
      simp only [addr] at this
      have hm : (q.st k).m = (q.st k).nb + (q.st k).ng := rfl
      omega

theorem oR_lt (q : Qp K) (hf : Fits q) {k i : Nat} (hk : k ≤ q.N) (hi : i < nv q k) : ∀ r ∈ oR q k i, r < numConstr q := by
  intro r hr
  have : r ∈ (place q (oL q k i)).map Prod.fst := by
    rw [← ozip q hk, List.map_fst_zip (by rw [olen])]; exact hr
  obtain ⟨e, he, rfl⟩ := List.mem_map.1 this
  obtain ⟨e', he', rfl⟩ := List.mem_map.1 he
  exact addr_lt q (ok_oL q hf hk hi e' he')

/-! ## number of entries -/

theorem hess_lengths (q : Qp K) : (hessStructure q).i.length ≤ nnzmaxP q ∧ (hessData q).length = (hessStructure q).i.length := by
  rw [Clarabel.hessStructure_length, Clarabel.hessData_length]
  refine ⟨?_, rfl⟩
  unfold Clarabel.nnzmaxP nnzmaxP
  refine off_le _ _ _ fun k _ => ?_
  have : (q.nu k + q.nx k) * (q.nu k + q.nx k + 1) / 2 ≤ q.nx k * q.nx k + q.nu k * q.nu k + 2 * q.nx k * q.nu k := by
    refine Nat.div_le_of_le_mul ?_
    nlinarith [Nat.le_mul_self (q.nu k + q.nx k)]
  omega

theorem con_lengths (q : Qp K) : (conStructure q).i.length = (conData q).length := by
  have e := con_mat q
  have h1 : (conStructure q).i = (mat q (oR q) (oV q)).i := congrArg Csc.i e
  have h2 : conData q = (mat q (oR q) (oV q)).x := congrArg Csc.x e
  rw [h1, h2]
  show (blocks _ _ _).flatten.length = (blocks _ _ _).flatten.length
  rw [blocks_flatten_length, blocks_flatten_length]
  exact off_congr _ _ _ fun k _ => sum_congr rfl fun i _ => olen q k i

/-- has a softened bound -/
def sb (q : Qp K) (k v : Nat) : Bool := match boundOn q k v with
  | some ii => soft q k ii
  | none => false

theorem varRows_length (q : Qp K) (k v : Nat) : (varRows q k v).length =
    dynLen q k + (if (boundOn q k v).isSome then 1 else 0) + (q.st k).ng + (if sb q k v then 1 else 0) + (softG q k).length := by
  unfold varRows dynLen sb
  dsimp only
  cases boundOn q k v with
  | none => by_cases h : k < q.N <;> simp [h] <;> omega
  | some ii => by_cases h : k < q.N <;> by_cases hs : soft q k ii = true <;> simp [h, hs] <;> omega

theorem sb_le (q : Qp K) (k n : Nat) : ∑ v ∈ range n, (if sb q k v then 1 else 0) ≤ cnt q k (q.st k).nb := by
  rw [← Finset.card_filter]
  have hc : cnt q k (q.st k).nb = ((range (q.st k).nb).filter fun i => soft q k i = true).card := by
    unfold cnt
    rw [← List.toFinset_card_of_nodup (List.nodup_range.filter _)]
    congr 1
    ext i
    simp
  rw [hc]
  refine Finset.card_le_card_of_injOn (fun v => (boundOn q k v).getD 0) ?_ ?_
  · intro v hv
    have hv' := (Finset.mem_filter.1 hv).2
    unfold sb at hv'
    cases hb : boundOn q k v with
    | none => rw [hb] at hv'; simp at hv'
    | some ii =>
      rw [hb] at hv'
      simp only [Option.getD_some, coe_filter, Finset.mem_range, Set.mem_setOf_eq, hb]
      exact ⟨(boundOn_some q hb).1, hv'⟩
  · intro v hv w hw e
    have hv' := (Finset.mem_filter.1 hv).2
    have hw' := (Finset.mem_filter.1 hw).2
    unfold sb at hv' hw'
    cases hb : boundOn q k v with
    | none => rw [hb] at hv'; simp at hv'
    | some ii =>
      cases hb' : boundOn q k w with
      | none => rw [hb'] at hw'; simp at hw'
      | some jj =>
        simp only [hb, hb', Option.getD_some] at e
        rw [← (boundOn_some q hb).2, ← (boundOn_some q hb').2, e]

theorem softG_length (q : Qp K) (k : Nat) : cnt q k (q.st k).nb + (softG q k).length = cnt q k (q.st k).m := cntG_eq q k (q.st k).ng

theorem softRows_length (q : Qp K) (k jj : Nat) : (softRows q k jj).length ≤ (q.st k).nb + (q.st k).ng := by
  unfold softRows
  exact (List.length_filter_le _ _).trans (by simp)

theorem oR_stage_length (q : Qp K) {k : Nat} (hf : cnt q k (q.st k).m ≤ (q.st k).ns) :
    ∑ i ∈ range (nv q k), (oR q k i).length ≤
      ((q.st k).nb + (q.st k).ng * q.nx k + (q.st k).ng * q.nu k + (q.st k).ns * (q.nu k + q.nx k) +
        ((q.st k).nb + (q.st k).ng) * 2 * (q.st k).ns + 2 * (q.st k).ns) +
      (dynLen q k * q.nx k + dynLen q k * q.nu k) + (if 0 < k then q.nx k else 0) := by
  have hnv : nv q k = q.nu k + q.nx k + (q.st k).ns + (q.st k).ns := by unfold nv; omega
  rw [hnv, Finset.sum_range_add, Finset.sum_range_add, Finset.sum_range_add]
  have h1 : ∑ i ∈ range (q.nu k), (oR q k i).length = ∑ i ∈ range (q.nu k), (varRows q k i).length :=
    sum_congr rfl fun i hi => by
      have := Finset.mem_range.1 hi
      unfold oR pick
      rw [if_pos (by omega), if_pos (by omega), if_pos this]; rfl
  have h2 : ∑ j ∈ range (q.nx k), (oR q k (q.nu k + j)).length
      = ∑ j ∈ range (q.nx k), (varRows q k (q.nu k + j)).length + (if 0 < k then q.nx k else 0) := by
    have : ∀ j ∈ range (q.nx k), (oR q k (q.nu k + j)).length = (varRows q k (q.nu k + j)).length + (if 0 < k then 1 else 0) := by
      intro i hi
      have := Finset.mem_range.1 hi
      unfold oR pick
      rw [if_pos (by omega), if_pos (by omega), if_neg (by omega), Nat.add_sub_cancel_left, rowsX, List.length_append]
      by_cases h0 : 0 < k <;> simp [h0, Nat.add_comm]
    rw [sum_congr rfl this, sum_add_distrib]
    by_cases h0 : 0 < k <;> simp [h0]
  have h3 : ∑ j ∈ range (q.st k).ns, (oR q k (q.nu k + q.nx k + j)).length ≤ (q.st k).ns * ((q.st k).nb + (q.st k).ng + 1) := by
    refine (Finset.sum_le_card_nsmul _ _ ((q.st k).nb + (q.st k).ng + 1) fun i hi => ?_).trans (by simp)
    have := Finset.mem_range.1 hi
    unfold oR pick
    rw [if_pos (by omega), if_neg (by omega), rowsSl, List.length_append, List.length_map]
    exact Nat.succ_le_succ (softRows_length q k _)
  have h4 : ∑ j ∈ range (q.st k).ns, (oR q k (q.nu k + q.nx k + (q.st k).ns + j)).length ≤ (q.st k).ns * ((q.st k).nb + (q.st k).ng + 1) := by
    refine (Finset.sum_le_card_nsmul _ _ ((q.st k).nb + (q.st k).ng + 1) fun i hi => ?_).trans (by simp)
    have := Finset.mem_range.1 hi
    unfold oR pick
    rw [if_neg (by omega), rowsSu, List.length_append, List.length_map]
    exact Nat.succ_le_succ (softRows_length q k _)
  have h5 : ∑ i ∈ range (q.nu k + q.nx k), (varRows q k i).length ≤
      (q.nu k + q.nx k) * (dynLen q k) + (q.st k).nb + (q.nu k + q.nx k) * (q.st k).ng + (q.nu k + q.nx k) * (q.st k).ns := by
    rw [sum_congr rfl fun i _ => varRows_length q k i, sum_add_distrib, sum_add_distrib, sum_add_distrib, sum_add_distrib]
    simp only [sum_const, card_range, smul_eq_mul]
    have hb := bounded_le q k (q.nu k + q.nx k)
    have hs := sb_le q k (q.nu k + q.nx k)
    have hG := softG_length q k
    have hz : ∑ v ∈ range (q.nu k + q.nx k), (if sb q k v then 1 else 0) ≤ (q.nu k + q.nx k) * cnt q k (q.st k).nb := by
      rcases Nat.eq_zero_or_pos (q.nu k + q.nx k) with e | e
      · rw [e]; simp
      · exact hs.trans (Nat.le_mul_of_pos_left _ e)
    have : (q.nu k + q.nx k) * cnt q k (q.st k).nb + (q.nu k + q.nx k) * (softG q k).length ≤ (q.nu k + q.nx k) * (q.st k).ns := by
      rw [← Nat.mul_add]
      exact Nat.mul_le_mul_left _ (by omega)
    omega
  rw [Finset.sum_range_add] at h5
  rw [h1, h2]
  nlinarith [h3, h4, h5]

theorem con_nnz (q : Qp K) (hf : Fits q) : (conStructure q).i.length ≤ nnzmaxA q := by
  have h1 : (conStructure q).i = (mat q (oR q) (oV q)).i := congrArg Csc.i (con_mat q)
  rw [h1]
  show (blocks _ _ _).flatten.length ≤ _
  rw [blocks_flatten_length]
  refine (off_le _ _ _ fun k hk => oR_stage_length q (hf k (by omega))).trans ?_
  rw [off_add, off_add]
  have e1 : off (fun k => dynLen q k * q.nx k + dynLen q k * q.nu k) (q.N + 1)
      = off (fun k => q.nx (k + 1) * q.nx k + q.nx (k + 1) * q.nu k) q.N := by
    rw [off, show dynLen q q.N = 0 from if_neg (by omega)]
    simp only [Nat.zero_mul, Nat.add_zero]
    exact off_congr _ _ _ fun k hk => by rw [dynLen_lt q hk]
  have e2 : ∀ n, off (fun k => if 0 < k then q.nx k else 0) (n + 1) = off (fun k => q.nx (k + 1)) n := by
    intro n
    induction n with
    | zero => rfl
    | succ n ih => rw [off, ih, off, if_pos (by omega)]
  have e3 : off (fun k => q.nx (k + 1) * q.nx k + q.nx (k + 1) * q.nu k + q.nx (k + 1)) q.N
      = off (fun k => q.nx (k + 1) * q.nx k + q.nx (k + 1) * q.nu k) q.N + off (fun k => q.nx (k + 1)) q.N := off_add _ _ _
  unfold nnzmaxA
  rw [e1, e2, e3]
  omega

/-! ## product of a column with multipliers -/

theorem mulTr_eq (q : Qp K) (hf : Fits q) (y : Nat → K) {k i : Nat} (hk : k ≤ q.N) (hi : i < nv q k) :
    (mat q (oR q) (oV q)).mulTr (numConstr q) y (off (nv q) k + i) = dot (place q (oL q k i)) y := by
  unfold Csc.mulTr
  rw [sum_congr rfl fun r _ => by
    rw [show (mat q (oR q) (oV q)).entry r (off (nv q) k + i) = rowSum ((mat q (oR q) (oV q)).col (off (nv q) k + i)) r from rfl,
      mat_col q _ _ (fun k _ i _ => olen q k i) hk hi, ozip q hk]]
  refine sum_rowSum _ _ _ ?_
  intro e he
  obtain ⟨e', he', rfl⟩ := List.mem_map.1 he
  exact addr_lt q (ok_oL q hf hk hi e' he')

/-- multiplier of the two sides of row `r` -/
def mu (q : Qp K) (y : Nat → K) (k r : Nat) : K :=
  y (addr q (.con k r)) + if soft q k r = true then y (addr q (.con k ((q.st k).m + cnt q k r))) else 0

theorem dot_bnd (q : Qp K) (hinj : ∀ k, ∀ i < (q.st k).nb, ∀ j < (q.st k).nb, (q.st k).idxb i = (q.st k).idxb j → i = j)
    (k v : Nat) (y : Nat → K) :
    dot (place q (bndL q k v)) y + dot (place q (repL q k v)) y = ∑ j ∈ range (q.st k).nb, if (q.st k).idxb j = v then mu q y k j else 0 := by
  unfold bndL repL
  cases h : boundOn q k v with
  | none =>
    have := boundOn_none q h
    rw [sum_eq_zero fun j hj => if_neg (this j (Finset.mem_range.1 hj))]
    simp [place]
  | some ii =>
    have hb := (boundOn_iff q (hinj k)).1 h
    rw [sum_congr rfl fun j hj => show (if (q.st k).idxb j = v then mu q y k j else 0) = if j = ii then mu q y k ii else 0 by
      by_cases e : j = ii
      · subst e; rw [if_pos hb.2, if_pos rfl]
      · rw [if_neg e, if_neg fun h' => e (hinj k j (Finset.mem_range.1 hj) ii hb.1 (h'.trans hb.2.symm))]]
    rw [sum_ite_eq', if_pos (Finset.mem_range.2 hb.1)]
    unfold mu
    by_cases hs : soft q k ii = true <;> simp [hs, place, dot]

theorem dot_var (q : Qp K) (hinj : ∀ k, ∀ i < (q.st k).nb, ∀ j < (q.st k).nb, (q.st k).idxb i = (q.st k).idxb j → i = j)
    (k v : Nat) (y : Nat → K) :
    dot (place q (varL q k v)) y =
      (if k < q.N then ∑ j ∈ range (q.nx (k + 1)), (q.st k).BAbt v j * y (addr q (.dyn k j)) else 0)
      + (∑ j ∈ range (q.st k).nb, if (q.st k).idxb j = v then mu q y k j else 0)
      + ∑ j ∈ range (q.st k).ng, (q.st k).DCt v j * mu q y k ((q.st k).nb + j) := by
  unfold varL
  simp only [place_append, dot_append]
  have hd : dot (place q (dynL q k v)) y = if k < q.N then ∑ j ∈ range (q.nx (k + 1)), (q.st k).BAbt v j * y (addr q (.dyn k j)) else 0 := by
    unfold dynL
    split
    · rw [place, List.map_map]
      exact dot_block _ _ _ _
    · rfl
  have hg : dot (place q (genL q k v)) y = ∑ j ∈ range (q.st k).ng, (q.st k).DCt v j * y (addr q (.con k ((q.st k).nb + j))) := by
    rw [genL, place, List.map_map]
    exact dot_block _ _ _ _
  have hr : dot (place q (repG q k v)) y = ∑ j ∈ range (q.st k).ng, (q.st k).DCt v j *
      (if soft q k ((q.st k).nb + j) = true then y (addr q (.con k ((q.st k).m + cnt q k ((q.st k).nb + j)))) else 0) := by
    rw [repG, softG, place, List.map_map, dot, List.map_map]
    refine (list_sum_filter _ _ _).trans ?_
    refine sum_congr rfl fun j _ => ?_
    by_cases h : soft q k ((q.st k).nb + j) = true <;> simp [h]
  have hb := dot_bnd q hinj k v y
  rw [hd, hg, hr]
  rw [← hb]
  have : (∑ j ∈ range (q.st k).ng, (q.st k).DCt v j * mu q y k ((q.st k).nb + j))
      = (∑ j ∈ range (q.st k).ng, (q.st k).DCt v j * y (addr q (.con k ((q.st k).nb + j)))) +
        ∑ j ∈ range (q.st k).ng, (q.st k).DCt v j *
          (if soft q k ((q.st k).nb + j) = true then y (addr q (.con k ((q.st k).m + cnt q k ((q.st k).nb + j)))) else 0) := by
    rw [← sum_add_distrib]
    exact sum_congr rfl fun j _ => by unfold mu; ring
  rw [this]
  ring

theorem dot_softL (q : Qp K) (k jj : Nat) (f : Nat → Row) (a : K) (y : Nat → K) :
    dot (place q ((softRows q k jj).map fun ii => (f ii, a))) y
      = a * ∑ r ∈ range (q.st k).m, if (q.st k).idxs r = (jj : Int) then y (addr q (f r)) else 0 := by
  unfold dot place softRows
  rw [List.map_map, List.map_map, mul_sum]
  refine (list_sum_filter _ _ _).trans ?_
  refine sum_congr rfl fun r _ => ?_
  by_cases h : (q.st k).idxs r = (jj : Int) <;> simp [h]

/-! ## bound arrays -/

theorem fold_bnd (len : Nat → Nat) (good : Nat → Nat → Option K → Option K → Option K → Prop) (step : Bnd K → Nat → Bnd K) (n : Nat)
    (hstep : ∀ s, ∀ k < n, (step s k).nn = s.nn + len k ∧
      (∀ j < len k, good k j ((step s k).l (s.nn + j)) ((step s k).u (s.nn + j)) (s.u (s.nn + j))) ∧
      (∀ i, i < s.nn ∨ s.nn + len k ≤ i → (step s k).l i = s.l i ∧ (step s k).u i = s.u i)) (s : Bnd K) :
    ((List.range n).foldl step s).nn = s.nn + off len n ∧
    (∀ k < n, ∀ j < len k, good k j (((List.range n).foldl step s).l (s.nn + off len k + j))
      (((List.range n).foldl step s).u (s.nn + off len k + j)) (s.u (s.nn + off len k + j))) ∧
    (∀ i, i < s.nn ∨ s.nn + off len n ≤ i →
      ((List.range n).foldl step s).l i = s.l i ∧ ((List.range n).foldl step s).u i = s.u i) := by
  induction n with
  | zero => exact ⟨rfl, fun k hk => absurd hk (Nat.not_lt_zero _), fun _ _ => ⟨rfl, rfl⟩⟩
  | succ n ih =>
    obtain ⟨h1, h2, h3⟩ := ih fun s k hk => hstep s k (by omega)
    rw [List.range_succ, List.foldl_append, List.foldl_cons, List.foldl_nil]
    generalize (List.range n).foldl step s = t at *
    obtain ⟨a1, a2, a3⟩ := hstep t n (Nat.lt_succ_self _)
    have e : off len (n + 1) = off len n + len n := rfl
    refine ⟨by omega, ?_, ?_⟩
    · intro k hk j hj
      by_cases ek : k = n
      · subst ek
        have := a2 j hj
        rw [h1] at this
        rw [← (h3 (s.nn + off len k + j) (by omega)).2]
        exact this
      · have := off_block len (show k < n by omega)
        rw [(a3 (s.nn + off len k + j) (by omega)).1, (a3 (s.nn + off len k + j) (by omega)).2]
        exact h2 k (by omega) j hj
    · intro i hi
      rw [(a3 i (by omega)).1, (a3 i (by omega)).2]
      exact h3 i (by omega)

theorem uppRow_fold (q : Qp K) (wf : WF q) (k nn : Nat) (u : Nat → Option K) (n : Nat) (hn : n ≤ (q.st k).m) :
    ((List.range n).foldl (uppRow q k nn) (0, u)).1 = cnt q k n ∧
    (∀ r < n, ((List.range n).foldl (uppRow q k nn) (0, u)).2 (nn + r)
      = if soft q k r = true then none else some (- (q.st k).d ((q.st k).m + r))) ∧
    (∀ r < n, soft q k r = true → ((List.range n).foldl (uppRow q k nn) (0, u)).2 (nn + ((q.st k).m + cnt q k r))
      = some (- (q.st k).d ((q.st k).m + r))) ∧
    (∀ i, i < nn ∨ (nn + n ≤ i ∧ i < nn + (q.st k).m) ∨ nn + (q.st k).m + cnt q k n ≤ i →
      ((List.range n).foldl (uppRow q k nn) (0, u)).2 i = u i) := by
  have hm : (q.st k).m = (q.st k).nb + (q.st k).ng := rfl
  induction n with
  | zero => exact ⟨rfl, fun r hr => absurd hr (Nat.not_lt_zero _), fun r hr => absurd hr (Nat.not_lt_zero _), fun _ _ => rfl⟩
  | succ n ih =>
    obtain ⟨h1, h2, h3, h4⟩ := ih (by omega)
    rw [List.range_succ, List.foldl_append, List.foldl_cons, List.foldl_nil]
    generalize (List.range n).foldl (uppRow q k nn) (0, u) = t at *
    have hc := cnt_succ q k n
    unfold uppRow
    dsimp only
    by_cases hs : soft q k n = true
    · rw [if_neg (fun h => (hard_iff q wf (show n < (q.st k).m by omega)).1 h hs)]
      rw [if_pos hs] at hc
      refine ⟨by dsimp only; omega, ?_, ?_, ?_⟩
      · intro r hr
        dsimp only
        rw [Function.update_of_ne (by omega)]
        by_cases e : r = n
        · subst e; rw [Function.update_self, if_pos hs]
        · rw [Function.update_of_ne (by omega), h2 r (by omega)]
      · intro r hr hsr
        dsimp only
        by_cases e : r = n
        · subst e
          rw [show nn + ((q.st k).m + cnt q k r) = nn + ((q.st k).nb + (q.st k).ng) + t.1 by omega, Function.update_self]; rfl
        · have := cnt_lt q (show r < n by omega) hsr
          rw [Function.update_of_ne (by omega), Function.update_of_ne (by omega), h3 r (by omega) hsr]
      · intro i hi
        dsimp only
        rw [Function.update_of_ne (by omega), Function.update_of_ne (by omega), h4 i (by omega)]
    · rw [if_pos ((hard_iff q wf (show n < (q.st k).m by omega)).2 hs)]
      rw [if_neg hs] at hc
      refine ⟨by dsimp only; omega, ?_, ?_, ?_⟩
      · intro r hr
        dsimp only
        by_cases e : r = n
        · subst e; rw [Function.update_self, if_neg hs]; rfl
        · rw [Function.update_of_ne (by omega), h2 r (by omega)]
      · intro r hr hsr
        dsimp only
        have e : r ≠ n := by rintro rfl; exact hs hsr
        rw [Function.update_of_ne (by omega), h3 r (by omega) hsr]
      · intro i hi
        dsimp only
        rw [Function.update_of_ne (by omega), h4 i (by omega)]

/-- what `update_bounds` leaves in the two arrays -/
theorem updateBounds_spec (q : Qp K) (wf : WF q) (hf : Fits q) (l u : Nat → Option K) :
    (∀ k < q.N, ∀ j < q.nx (k + 1), (updateBounds q l u).l (addr q (.dyn k j)) = some (- (q.st k).b j) ∧
      (updateBounds q l u).u (addr q (.dyn k j)) = some (- (q.st k).b j)) ∧
    (∀ k ≤ q.N, ∀ r < (q.st k).m, (updateBounds q l u).l (addr q (.con k r)) = some ((q.st k).d r) ∧
      (updateBounds q l u).u (addr q (.con k r)) = if soft q k r = true then none else some (- (q.st k).d ((q.st k).m + r))) ∧
    (∀ k ≤ q.N, ∀ c < (q.st k).ns, (updateBounds q l u).l (addr q (.con k ((q.st k).m + c))) = none) ∧
    (∀ k ≤ q.N, ∀ r < (q.st k).m, soft q k r = true →
      (updateBounds q l u).u (addr q (.con k ((q.st k).m + cnt q k r))) = some (- (q.st k).d ((q.st k).m + r))) ∧
    (∀ k ≤ q.N, ∀ c < (q.st k).ns, cnt q k (q.st k).m ≤ c →
      (updateBounds q l u).u (addr q (.con k ((q.st k).m + c))) = u (addr q (.con k ((q.st k).m + c)))) ∧
    (∀ k ≤ q.N, ∀ s < 2 * (q.st k).ns, (updateBounds q l u).l (addr q (.slk k s)) = some ((q.st k).d (2 * (q.st k).m + s)) ∧
      (updateBounds q l u).u (addr q (.slk k s)) = none) := by
  unfold updateBounds
  dsimp only
  obtain ⟨d1, d2, d3⟩ := fold_bnd (fun k => q.nx (k + 1)) (fun k j l u _ => l = some (- (q.st k).b j) ∧ u = some (- (q.st k).b j)) (boundsDyn q) q.N (by
    intro s k hk
    refine ⟨rfl, ?_, ?_⟩
    · intro j hj
      simp only [boundsDyn, put]
      rw [if_pos (by omega), if_pos (by omega), Nat.add_sub_cancel_left]; exact ⟨rfl, rfl⟩
    · intro i hi
      simp only [boundsDyn, put]
      rw [if_neg (by omega), if_neg (by omega)]; exact ⟨rfl, rfl⟩) ⟨0, l, u⟩
  generalize (List.range q.N).foldl (boundsDyn q) ⟨0, l, u⟩ = s1 at *
  obtain ⟨a1, a2, a3⟩ := fold_bnd (conLen q) (fun k j l u u0 =>
      (j < (q.st k).m → l = some ((q.st k).d j) ∧ u = if soft q k j = true then none else some (- (q.st k).d ((q.st k).m + j))) ∧
      ((q.st k).m ≤ j → l = none ∧ (∀ r < (q.st k).m, soft q k r = true → j = (q.st k).m + cnt q k r → u = some (- (q.st k).d ((q.st k).m + r))) ∧
        ((q.st k).m + cnt q k (q.st k).m ≤ j → u = u0))) (boundsCon q) (q.N + 1) (by
    intro s k hk
    have hm : (q.st k).m = (q.st k).nb + (q.st k).ng := rfl
    have hl : conLen q k = (q.st k).nb + (q.st k).ng + (q.st k).ns := rfl
    have hf' := hf k (by omega)
    obtain ⟨b1, b2, b3, b4⟩ := uppRow_fold q wf k s.nn s.u (q.st k).m (Nat.le_refl _)
    refine ⟨rfl, ?_, ?_⟩
    · intro j hj
      refine ⟨fun h => ⟨?_, b2 j h⟩, fun h => ⟨?_, ?_, ?_⟩⟩
      · simp only [boundsCon, put]
        rw [if_neg (by omega), if_pos (by omega), Nat.add_sub_cancel_left]
      · simp only [boundsCon, put]
        rw [if_pos (by omega)]
      · rintro r hr hs rfl
        exact b3 r hr hs
      · intro h2
        exact b4 _ (by omega)
    · intro i hi
      refine ⟨?_, b4 i (by omega)⟩
      simp only [boundsCon, put]
      rw [if_neg (by omega), if_neg (by omega)]) s1
  generalize (List.range (q.N + 1)).foldl (boundsCon q) s1 = s2 at *
  obtain ⟨c1, c2, c3⟩ := fold_bnd (slkLen q) (fun k j l u _ => l = some ((q.st k).d (2 * (q.st k).m + j)) ∧ u = none)
    (boundsSlk q) (q.N + 1) (by
    intro s k hk
    have hm : (q.st k).m = (q.st k).nb + (q.st k).ng := rfl
    have hl : slkLen q k = 2 * (q.st k).ns := rfl
    refine ⟨rfl, ?_, ?_⟩
    · intro j hj
      simp only [boundsSlk, put]
      rw [if_pos (by omega), if_pos (by omega), Nat.add_sub_cancel_left]
      refine ⟨?_, rfl⟩
      congr 3
      omega
    · intro i hi
      simp only [boundsSlk, put]
      rw [if_neg (by omega), if_neg (by omega)]; exact ⟨rfl, rfl⟩) s2
  generalize (List.range (q.N + 1)).foldl (boundsSlk q) s2 = s3 at *
  have hoff : ∀ k ≤ q.N, off (fun k => q.nx (k + 1)) k = off (dynLen q) k := fun k hk =>
    off_congr _ _ _ fun i hi => (dynLen_lt q (by omega)).symm
  have hc : s1.nn = conStart q := by rw [d1, conStart, dyn_last, hoff q.N (Nat.le_refl _)]; exact Nat.zero_add _
  have hs : s2.nn = slkStart q := by rw [a1, hc, slkStart]; omega
  have hcs := con_le_slk q
  rw [hs] at c2 c3
  rw [hc] at a2 a3
  have hss : slkStart q = off (conLen q) (q.N + 1) + conStart q := rfl
  dsimp only at d2 d3
  refine ⟨?_, ?_, ?_, ?_, ?_, ?_⟩
  · intro k hk j hj
    have h := addr_dyn_lt q (k := k) (j := j) ⟨hk, hj⟩
    have e := d2 k hk j hj
    rw [hoff k (by omega), Nat.zero_add] at e
    rw [(c3 _ (Or.inl (by omega))).1, (c3 _ (Or.inl (by omega))).2, (a3 _ (Or.inl (by omega))).1, (a3 _ (Or.inl (by omega))).2]
    exact e
  · intro k hk r hr
    have h := addr_con_lt q (ok_con q hk hr)
    rw [(c3 _ (Or.inl (by omega))).1, (c3 _ (Or.inl (by omega))).2]
    exact (a2 k (by omega) r (ok_con q hk hr).2).1 hr
  · intro k hk c hc
    have hok : Ok q (.con k ((q.st k).m + c)) := ⟨hk, by
      have h1 : conLen q k = (q.st k).m + (q.st k).ns := rfl
      omega⟩
    have h := addr_con_lt q hok
    rw [(c3 _ (Or.inl (by omega))).1]
    exact ((a2 k (by omega) _ hok.2).2 (by omega)).1
  · intro k hk r hr hsr
    have h := addr_con_lt q (ok_rep q hf hk hr hsr)
    rw [(c3 _ (Or.inl (by omega))).2]
    exact ((a2 k (by omega) _ (ok_rep q hf hk hr hsr).2).2 (by omega)).2.1 r hr hsr rfl
  · intro k hk c hc hcc
    have hok : Ok q (.con k ((q.st k).m + c)) := ⟨hk, by
      have h1 : conLen q k = (q.st k).m + (q.st k).ns := rfl
      omega⟩
    have h := addr_con_lt q hok
    rw [(c3 _ (Or.inl (by omega))).2]
    have e := ((a2 k (by omega) _ hok.2).2 (by omega)).2.2 (by omega)
    refine e.trans ?_
    refine (d3 _ (Or.inr ?_)).2
    rw [hoff q.N (Nat.le_refl _), Nat.zero_add, ← dyn_last]
    exact Nat.le_add_right_of_le (Nat.le_add_right _ _)
  · intro k hk s hs'
    exact c2 k (by omega) s hs'

end Acados.SparseQp.Osqp
