import Verif.Model.Osqp
import Verif.Lemmas.Clarabel2
/-! # Lemmas about the constraint matrix for OSQP -/
namespace Acados.SparseQp.Osqp
open Acados.QpScal Acados.Csc Finset
open Acados.SparseQp.Clarabel (pick pick_map part coef coef_lhs soft_sum dyn_last eye_row dot dot_append dot_block off_congr off_le off_add
  bounded_le blocks_flatten_length)
variable {K : Type*} [Field K] [LinearOrder K]

/-! ## rows by kind, stage and position -/

inductive Row
  | dyn (k j : Nat)
  | con (k j : Nat)
  | slk (k j : Nat)
  deriving DecidableEq

def addr (q : Qp K) : Row → Nat
  | .dyn k j => off (dynLen q) k + j
  | .con k j => conStart q + off (conLen q) k + j
  | .slk k j => slkStart q + off (slkLen q) k + j

def Ok (q : Qp K) : Row → Prop
  | .dyn k j => k < q.N ∧ j < q.nx (k + 1)
  | .con k j => k ≤ q.N ∧ j < conLen q k
  | .slk k j => k ≤ q.N ∧ j < slkLen q k

theorem dynLen_lt (q : Qp K) {k : Nat} (hk : k < q.N) : dynLen q k = q.nx (k + 1) := if_pos hk

theorem addr_dyn_lt (q : Qp K) {k j : Nat} (h : Ok q (.dyn k j)) : addr q (.dyn k j) < conStart q := by
  have := off_block (dynLen q) (show k < q.N + 1 from Nat.lt_succ_of_lt h.1)
  have e := dynLen_lt q h.1
  have := h.2
  simp only [conStart, addr]; omega

theorem addr_con_lt (q : Qp K) {k j : Nat} (h : Ok q (.con k j)) :
    conStart q ≤ addr q (.con k j) ∧ addr q (.con k j) < slkStart q := by
  have := off_block (conLen q) (show k < q.N + 1 from Nat.lt_succ_of_le h.1)
  have := h.2
  simp only [slkStart, addr]; omega

theorem numConstr_eq (q : Qp K) : numConstr q = slkStart q + off (slkLen q) (q.N + 1) := by
  have h1 : off (fun k => (q.st k).nb + (q.st k).ng + (q.st k).ns + 2 * (q.st k).ns) (q.N + 1)
      = off (conLen q) (q.N + 1) + off (slkLen q) (q.N + 1) := off_add (conLen q) (slkLen q) _
  have h2 : off (fun k => q.nx (k + 1)) q.N = conStart q := by
    rw [conStart, dyn_last]
    exact off_congr _ _ _ fun k hk => (dynLen_lt q hk).symm
  unfold numConstr slkStart
  omega

theorem addr_slk_lt (q : Qp K) {k j : Nat} (h : Ok q (.slk k j)) :
    slkStart q ≤ addr q (.slk k j) ∧ addr q (.slk k j) < numConstr q := by
  have := off_block (slkLen q) (show k < q.N + 1 from Nat.lt_succ_of_le h.1)
  have := h.2
  rw [numConstr_eq]
  simp only [addr]; omega

theorem con_le_slk (q : Qp K) : conStart q ≤ slkStart q := Nat.le_add_left _ _
theorem slk_le_num (q : Qp K) : slkStart q ≤ numConstr q := by rw [numConstr_eq]; omega

theorem addr_lt (q : Qp K) {R : Row} (h : Ok q R) : addr q R < numConstr q := by
  have h1 := con_le_slk q
  have h2 := slk_le_num q
  cases R with
  | dyn k j => have := addr_dyn_lt q h; omega
  | con k j => have := addr_con_lt q h; omega
  | slk k j => have := addr_slk_lt q h; omega

theorem addr_inj (q : Qp K) {R R' : Row} (h : Ok q R) (h' : Ok q R') (e : addr q R = addr q R') : R = R' := by
  have h1 := con_le_slk q
  have h2 := slk_le_num q
  cases R with
  | dyn k j =>
    have a := addr_dyn_lt q h
    cases R' with
    | dyn k' j' =>
      have := off_inj (dynLen q) (k := k) (k' := k') (i := j) (i' := j') (by rw [dynLen_lt q h.1]; exact h.2)
        (by rw [dynLen_lt q h'.1]; exact h'.2) e
      rw [this.1, this.2]
    | con k' j' => have := addr_con_lt q h'; omega
    | slk k' j' => have := addr_slk_lt q h'; omega
  | con k j =>
    have a := addr_con_lt q h
    cases R' with
    | dyn k' j' => have := addr_dyn_lt q h'; omega
    | con k' j' =>
      have := off_inj (conLen q) (k := k) (k' := k') (i := j) (i' := j') h.2 h'.2 (by simp only [addr] at e; omega)
      rw [this.1, this.2]
    | slk k' j' => have := addr_slk_lt q h'; omega
  | slk k j =>
    have a := addr_slk_lt q h
    cases R' with
    | dyn k' j' => have := addr_dyn_lt q h'; omega
    | con k' j' => have := addr_con_lt q h'; omega
    | slk k' j' =>
      have := off_inj (slkLen q) (k := k) (k' := k') (i := j) (i' := j') h.2 h'.2 (by simp only [addr] at e; omega)
      rw [this.1, this.2]

theorem addr_surj (q : Qp K) {r : Nat} (h : r < numConstr q) : ∃ R, Ok q R ∧ addr q R = r := by
  by_cases h1 : r < conStart q
  · obtain ⟨k, hk, i, hi, e⟩ := off_cases (dynLen q) q.N r (by rw [← dyn_last]; exact h1)
    exact ⟨.dyn k i, ⟨hk, by rw [← dynLen_lt q hk]; exact hi⟩, e.symm⟩
  · by_cases h2 : r < slkStart q
    · have h3 : slkStart q = off (conLen q) (q.N + 1) + conStart q := rfl
      obtain ⟨k, hk, i, hi, e⟩ := off_cases (conLen q) (q.N + 1) (r - conStart q) (by omega)
      exact ⟨.con k i, ⟨by omega, hi⟩, by simp only [addr]; omega⟩
    · rw [numConstr_eq] at h
      obtain ⟨k, hk, i, hi, e⟩ := off_cases (slkLen q) (q.N + 1) (r - slkStart q) (by omega)
      exact ⟨.slk k i, ⟨by omega, hi⟩, by simp only [addr]; omega⟩

/-! ## counting softened rows -/

theorem cnt_succ (q : Qp K) (k r : Nat) : cnt q k (r + 1) = cnt q k r + if soft q k r then 1 else 0 := by
  unfold cnt
  rw [List.range_succ, List.filter_append, List.length_append]
  cases h : soft q k r <;> simp [h]

theorem cnt_mono (q : Qp K) (k : Nat) {a b : Nat} (h : a ≤ b) : cnt q k a ≤ cnt q k b := by
  induction b with
  | zero => obtain rfl : a = 0 := by omega
            exact Nat.le_refl _
  | succ b ih =>
    by_cases e : a = b + 1
    · rw [e]
    · rw [cnt_succ]; exact (ih (by omega)).trans (Nat.le_add_right _ _)

theorem cnt_lt (q : Qp K) {k a b : Nat} (h : a < b) (hs : soft q k a) : cnt q k a < cnt q k b := by
  have := cnt_mono q k (show a + 1 ≤ b from h)
  rw [cnt_succ, if_pos hs] at this
  omega

theorem cnt_inj (q : Qp K) {k a b : Nat} (ha : soft q k a) (hb : soft q k b) (h : cnt q k a = cnt q k b) : a = b := by
  rcases Nat.lt_trichotomy a b with e | e | e
  · have := cnt_lt q e ha; omega
  · exact e
  · have := cnt_lt q e hb; omega

theorem cntG_eq (q : Qp K) (k ii : Nat) : cnt q k (q.st k).nb + cntG q k ii = cnt q k ((q.st k).nb + ii) := by
  unfold cnt cntG
  rw [List.range_add, List.filter_append, List.length_append, List.filter_map, List.length_map]
  rfl

/-- the softened rows fit the rows reserved for their upper sides -/
def Fits (q : Qp K) : Prop := ∀ k ≤ q.N, cnt q k (q.st k).m ≤ (q.st k).ns

theorem soft_iff (q : Qp K) (k r : Nat) : soft q k r = true ↔ 0 ≤ (q.st k).idxs r := by simp [soft]

theorem soft_softRows (q : Qp K) {k jj ii : Nat} (h : ii ∈ softRows q k jj) : ii < (q.st k).m ∧ soft q k ii = true := by
  obtain ⟨h1, h2⟩ := (mem_softRows q).1 h
  exact ⟨h1, by rw [soft_iff, h2]; omega⟩

theorem hard_iff (q : Qp K) (wf : WF q) {k r : Nat} (hr : r < (q.st k).m) : (q.st k).idxs r = -1 ↔ ¬ soft q k r = true := by
  rw [soft_iff]
  rcases wf.idxs k r hr with h | ⟨s, _, h⟩ <;> omega

/-! ## columns -/

def oR (q : Qp K) (k i : Nat) : List Nat := pick q k i (rowsU q k) (rowsX q k) (rowsSl q k) (rowsSu q k)
def oV (q : Qp K) (k i : Nat) : List K := pick q k i (valsU q k) (valsX q k) (valsSl q k) (valsSu q k)

theorem con_mat (q : Qp K) :
    (⟨(conStructure q).p, (conStructure q).i, conData q⟩ : Csc K) = mat q (oR q) (oV q) := by
  have h1 : (List.range (q.N + 1)).flatMap (stageRows q) = blocks (nv q) (oR q) (q.N + 1) := by
    simp only [blocks]; congr 1; funext k; exact pick_map q k _ _ _ _
  have h2 : (List.range (q.N + 1)).flatMap (stageVals q) = blocks (nv q) (oV q) (q.N + 1) := by
    simp only [blocks]; congr 1; funext k; exact pick_map q k _ _ _ _
  rw [conStructure, conData, build_eq, h1, h2]; rfl

def bndL (q : Qp K) (k v : Nat) : List (Row × K) :=
  match boundOn q k v with
  | some ii => [(.con k ii, 1)]
  | none => []
def repL (q : Qp K) (k v : Nat) : List (Row × K) :=
  match boundOn q k v with
  | some ii => if soft q k ii then [(.con k ((q.st k).m + cnt q k ii), 1)] else []
  | none => []
def dynL (q : Qp K) (k v : Nat) : List (Row × K) :=
  if k < q.N then (List.range (q.nx (k + 1))).map fun ii => (.dyn k ii, (q.st k).BAbt v ii) else []
def genL (q : Qp K) (k v : Nat) : List (Row × K) :=
  (List.range (q.st k).ng).map fun ii => (.con k ((q.st k).nb + ii), (q.st k).DCt v ii)
def repG (q : Qp K) (k v : Nat) : List (Row × K) :=
  (softG q k).map fun ii => (.con k ((q.st k).m + cnt q k ((q.st k).nb + ii)), (q.st k).DCt v ii)

def varL (q : Qp K) (k v : Nat) : List (Row × K) := dynL q k v ++ bndL q k v ++ genL q k v ++ repL q k v ++ repG q k v
def eyeL (k jj : Nat) : List (Row × K) := if 0 < k then [(.dyn (k - 1) jj, -1)] else []
def slL (q : Qp K) (k jj : Nat) : List (Row × K) := ((softRows q k jj).map fun ii => (.con k ii, 1)) ++ [(.slk k jj, 1)]
def suL (q : Qp K) (k jj : Nat) : List (Row × K) :=
  ((softRows q k jj).map fun ii => (.con k ((q.st k).m + cnt q k ii), -1)) ++ [(.slk k ((q.st k).ns + jj), 1)]
def oL (q : Qp K) (k i : Nat) : List (Row × K) :=
  pick q k i (varL q k) (fun jj => eyeL k jj ++ varL q k (q.nu k + jj)) (slL q k) (suL q k)

/-- positions instead of rows -/
def place (q : Qp K) (l : List (Row × K)) : List (Nat × K) := l.map fun e => (addr q e.1, e.2)

theorem place_append (q : Qp K) (l l' : List (Row × K)) : place q (l ++ l') = place q l ++ place q l' := List.map_append

theorem varLen (q : Qp K) (k v : Nat) : (varRows q k v).length = (varVals q k v).length := by
  unfold varRows varVals
  dsimp only
  cases boundOn q k v with
  | none => by_cases h : k < q.N <;> simp [h]
  | some ii => by_cases h : k < q.N <;> by_cases hs : soft q k ii = true <;> simp [h, hs]

theorem varZip (q : Qp K) (k v : Nat) : (varRows q k v).zip (varVals q k v) = place q (varL q k v) := by
  have hm : (q.st k).m = (q.st k).nb + (q.st k).ng := rfl
  have hg : ((softG q k).map fun ii => conStart q + off (conLen q) k + ((q.st k).nb + (q.st k).ng + (cnt q k (q.st k).nb + cntG q k ii))).zip
      ((softG q k).map fun ii => (q.st k).DCt v ii) = place q (repG q k v) := by
    rw [zip_map, repG, place, List.map_map]
    refine List.map_congr_left fun ii _ => ?_
    rw [cntG_eq]; rfl
  have hG : ((List.range (q.st k).ng).map fun ii => conStart q + off (conLen q) k + ((q.st k).nb + ii)).zip
      ((List.range (q.st k).ng).map fun ii => (q.st k).DCt v ii) = place q (genL q k v) := by
    rw [zip_map, genL, place, List.map_map]; rfl
  have hD : (if k < q.N then (List.range (q.nx (k + 1))).map fun ii => off (dynLen q) k + ii else []).zip
      (if k < q.N then (List.range (q.nx (k + 1))).map fun ii => (q.st k).BAbt v ii else []) = place q (dynL q k v) := by
    unfold dynL
    split
    · rw [zip_map, place, List.map_map]; rfl
    · rfl
  have hdl : (if k < q.N then (List.range (q.nx (k + 1))).map fun ii => off (dynLen q) k + ii else []).length =
      (if k < q.N then (List.range (q.nx (k + 1))).map fun ii => (q.st k).BAbt v ii else []).length := by
    split <;> simp
  unfold varRows varVals varL
  dsimp only
  simp only [place_append]
  cases hb : boundOn q k v with
  | none =>
    dsimp only
    rw [List.zip_append (by simp [hdl]), List.zip_append (by simp [hdl]), List.zip_append (by simp [hdl]), List.zip_append (by simp [hdl]),
      hD, hG, hg, bndL, repL, hb]
    rfl
  | some ii =>
    dsimp only
    by_cases hs : soft q k ii = true
    · simp only [hs, if_true]
      rw [List.zip_append (by simp [hdl]), List.zip_append (by simp [hdl]), List.zip_append (by simp [hdl]), List.zip_append (by simp [hdl]),
        hD, hG, hg, bndL, repL, hb]
      dsimp only
      rw [if_pos hs]
      rfl
    · simp only [hs, if_false]
      rw [List.zip_append (by simp [hdl]), List.zip_append (by simp [hdl]), List.zip_append (by simp [hdl]), List.zip_append (by simp [hdl]),
        hD, hG, hg, bndL, repL, hb]
      dsimp only
      rw [if_neg hs]
      rfl

theorem olen (q : Qp K) (k i : Nat) : (oR q k i).length = (oV q k i).length := by
  unfold oR oV pick
  split
  · split
    · split
      · exact varLen q k _
      · unfold rowsX valsX
        rw [List.length_append, List.length_append, varLen]
        split <;> rfl
    · simp [rowsSl, valsSl]
  · simp [rowsSu, valsSu]

theorem ozip (q : Qp K) {k i : Nat} (hk : k ≤ q.N) : (oR q k i).zip (oV q k i) = place q (oL q k i) := by
  unfold oR oV oL pick
  split
  · split
    · split
      · exact varZip q k _
      · unfold rowsX valsX eyeL
        rw [place_append]
        by_cases h : 0 < k
        · simp only [h, if_true]
          rw [List.zip_append (by simp), varZip, eye_row q h hk]; rfl
        · simp only [h, if_false]
          rw [List.nil_append, List.nil_append, varZip]; rfl
    · unfold rowsSl valsSl slL
      rw [List.zip_append (by simp), zip_map, place_append, place, List.map_map]; rfl
  · unfold rowsSu valsSu suL
    rw [List.zip_append (by simp), zip_map, place_append, place, List.map_map]; rfl

/-! ## all rows exist -/

theorem mem_varL (q : Qp K) {k v : Nat} {e : Row × K} (he : e ∈ varL q k v) :
    (k < q.N ∧ ∃ j < q.nx (k + 1), e.1 = .dyn k j) ∨ (∃ r < (q.st k).m, e.1 = .con k r) ∨
    (∃ r < (q.st k).m, soft q k r = true ∧ e.1 = .con k ((q.st k).m + cnt q k r)) := by
  have hm : (q.st k).m = (q.st k).nb + (q.st k).ng := rfl
  unfold varL dynL bndL genL repL repG softG at he
  simp only [List.mem_append] at he
  rcases he with (((he | he) | he) | he) | he
  · split at he
    · rename_i hN
      obtain ⟨j, hj, rfl⟩ := List.mem_map.1 he
      exact Or.inl ⟨hN, j, List.mem_range.1 hj, rfl⟩
    · simp at he
  · cases hb : boundOn q k v with
    | none => rw [hb] at he; simp at he
    | some ii =>
      rw [hb] at he
      rw [List.mem_singleton.1 he]
      exact Or.inr (Or.inl ⟨ii, by have := (boundOn_some q hb).1; omega, rfl⟩)
  · obtain ⟨j, hj, rfl⟩ := List.mem_map.1 he
    have := List.mem_range.1 hj
    exact Or.inr (Or.inl ⟨_, by omega, rfl⟩)
  · cases hb : boundOn q k v with
    | none => rw [hb] at he; simp at he
    | some ii =>
      rw [hb] at he
      dsimp only at he
      split at he
      · rename_i hs
        rw [List.mem_singleton.1 he]
        exact Or.inr (Or.inr ⟨ii, by have := (boundOn_some q hb).1; omega, hs, rfl⟩)
      · simp at he
  · obtain ⟨j, hj, rfl⟩ := List.mem_map.1 he
    obtain ⟨h1, h2⟩ := List.mem_filter.1 hj
    have := List.mem_range.1 h1
    exact Or.inr (Or.inr ⟨_, by omega, h2, rfl⟩)

theorem ok_rep (q : Qp K) (hf : Fits q) {k r : Nat} (hk : k ≤ q.N) (hr : r < (q.st k).m) (hs : soft q k r = true) :
    Ok q (.con k ((q.st k).m + cnt q k r)) := by
  have := cnt_lt q hr hs
  have := hf k hk
  have h1 : conLen q k = (q.st k).nb + (q.st k).ng + (q.st k).ns := rfl
  have hm : (q.st k).m = (q.st k).nb + (q.st k).ng := rfl
  exact ⟨hk, by omega⟩

theorem ok_con (q : Qp K) {k r : Nat} (hk : k ≤ q.N) (hr : r < (q.st k).m) : Ok q (.con k r) := by
  have h1 : conLen q k = (q.st k).nb + (q.st k).ng + (q.st k).ns := rfl
  have hm : (q.st k).m = (q.st k).nb + (q.st k).ng := rfl
  exact ⟨hk, by omega⟩

theorem ok_varL (q : Qp K) (hf : Fits q) {k v : Nat} (hk : k ≤ q.N) : ∀ e ∈ varL q k v, Ok q e.1 := by
  intro e he
  rcases mem_varL q he with ⟨hN, j, hj, h⟩ | ⟨r, hr, h⟩ | ⟨r, hr, hs, h⟩
  · rw [h]; exact ⟨hN, hj⟩
  · rw [h]; exact ok_con q hk hr
  · rw [h]; exact ok_rep q hf hk hr hs

theorem ok_eyeL (q : Qp K) {k jj : Nat} (hk : k ≤ q.N) (hj : jj < q.nx k) : ∀ e ∈ eyeL (K := K) k jj, Ok q e.1 := by
  intro e he
  unfold eyeL at he
  split at he
  · rename_i h0
    rw [List.mem_singleton.1 he]
    exact ⟨by omega, by rwa [Nat.sub_add_cancel h0]⟩
  · simp at he

theorem ok_slL (q : Qp K) {k jj : Nat} (hk : k ≤ q.N) (hj : jj < (q.st k).ns) : ∀ e ∈ slL q k jj, Ok q e.1 := by
  have h4 : slkLen q k = 2 * (q.st k).ns := rfl
  intro e he
  rcases List.mem_append.1 he with he | he
  · obtain ⟨ii, hii, rfl⟩ := List.mem_map.1 he
    exact ok_con q hk (soft_softRows q hii).1
  · rw [List.mem_singleton.1 he]; exact ⟨hk, by omega⟩

theorem ok_suL (q : Qp K) (hf : Fits q) {k jj : Nat} (hk : k ≤ q.N) (hj : jj < (q.st k).ns) : ∀ e ∈ suL q k jj, Ok q e.1 := by
  have h4 : slkLen q k = 2 * (q.st k).ns := rfl
  intro e he
  rcases List.mem_append.1 he with he | he
  · obtain ⟨ii, hii, rfl⟩ := List.mem_map.1 he
    exact ok_rep q hf hk (soft_softRows q hii).1 (soft_softRows q hii).2
  · rw [List.mem_singleton.1 he]; exact ⟨hk, by omega⟩

theorem ok_oL (q : Qp K) (hf : Fits q) {k i : Nat} (hk : k ≤ q.N) (hi : i < nv q k) : ∀ e ∈ oL q k i, Ok q e.1 := by
  have h7 : nv q k = q.nu k + q.nx k + 2 * (q.st k).ns := rfl
  intro e he
  unfold oL pick at he
  split at he
  · split at he
    · split at he
      · exact ok_varL q hf hk e he
      · rcases List.mem_append.1 he with he | he
        · exact ok_eyeL q hk (by omega) e he
        · exact ok_varL q hf hk e he
    · exact ok_slL q hk (by omega) e he
  · exact ok_suL q hf hk (by omega) e he

/-! ## entry of a column in a row -/

def lsum (l : List (Row × K)) (R : Row) : K := (l.map fun e => if e.1 = R then e.2 else 0).sum

@[simp] theorem lsum_nil (R : Row) : lsum ([] : List (Row × K)) R = 0 := rfl
theorem lsum_cons (e : Row × K) (l : List (Row × K)) (R : Row) : lsum (e :: l) R = (if e.1 = R then e.2 else 0) + lsum l R := by
  simp [lsum]
theorem lsum_append (l l' : List (Row × K)) (R : Row) : lsum (l ++ l') R = lsum l R + lsum l' R := by
  simp [lsum, List.sum_append]
theorem lsum_range (n : Nat) (f : Nat → Row) (g : Nat → K) (R : Row) :
    lsum ((List.range n).map fun i => (f i, g i)) R = ∑ i ∈ range n, if f i = R then g i else 0 := by
  unfold lsum; rw [List.map_map]; exact list_sum_range n _
theorem lsum_filter (n : Nat) (s : Nat → Bool) (f : Nat → Row) (g : Nat → K) (R : Row) :
    lsum (((List.range n).filter s).map fun i => (f i, g i)) R = ∑ i ∈ range n, if s i = true then (if f i = R then g i else 0) else 0 := by
  unfold lsum; rw [List.map_map]; exact list_sum_filter n s _
theorem lsum_zero {l : List (Row × K)} {R : Row} (h : ∀ e ∈ l, e.1 ≠ R) : lsum l R = 0 := by
  induction l with
  | nil => rfl
  | cons e l ih =>
    rw [lsum_cons, if_neg (h e List.mem_cons_self), ih fun e' h' => h e' (List.mem_cons_of_mem _ h'), add_zero]

theorem rowSum_place (q : Qp K) (l : List (Row × K)) (hl : ∀ e ∈ l, Ok q e.1) {R : Row} (hR : Ok q R) :
    rowSum (place q l) (addr q R) = lsum l R := by
  induction l with
  | nil => rfl
  | cons e l ih =>
    show rowSum ((addr q e.1, e.2) :: place q l) _ = _
    rw [rowSum_cons, lsum_cons, ih fun e' h' => hl e' (List.mem_cons_of_mem _ h')]
    congr 1
    have : (addr q e.1 = addr q R) ↔ e.1 = R := ⟨fun h => addr_inj q (hl e List.mem_cons_self) hR h, fun h => by rw [h]⟩
    simp only [this]

theorem var_dyn (q : Qp K) {k v k' j : Nat} (hk' : k' < q.N) (hj : j < q.nx (k' + 1)) :
    lsum (varL q k v) (.dyn k' j) = if k = k' then (q.st k').BAbt v j else 0 := by
  unfold varL
  rw [lsum_append, lsum_append, lsum_append, lsum_append]
  have z : lsum (bndL q k v) (.dyn k' j) = 0 := by unfold bndL; split <;> simp [lsum_cons]
  have z2 : lsum (repL q k v) (.dyn k' j) = 0 := by
    unfold repL
    split
    · split <;> simp [lsum_cons]
    · rfl
  have z1 : lsum (genL q k v) (.dyn k' j) = 0 := by unfold genL; rw [lsum_range]; simp
  have z3 : lsum (repG q k v) (.dyn k' j) = 0 := by unfold repG softG; rw [lsum_filter]; simp
  rw [z, z1, z2, z3, add_zero, add_zero, add_zero, add_zero]
  unfold dynL
  by_cases hN : k < q.N
  · rw [if_pos hN, lsum_range]
    by_cases e : k = k'
    · subst e
      simp only [Row.dyn.injEq, true_and, if_true]
      rw [sum_ite_eq', if_pos (Finset.mem_range.2 hj)]
    · simp [e]
  · rw [if_neg hN, if_neg (by omega)]; rfl

theorem var_con (q : Qp K) (hinj : ∀ k, ∀ i < (q.st k).nb, ∀ j < (q.st k).nb, (q.st k).idxb i = (q.st k).idxb j → i = j)
    {k v k' r : Nat} (hr : r < (q.st k').m) :
    lsum (varL q k v) (.con k' r) = if k = k' then coef (q.st k') v r else 0 := by
  have hm : (q.st k').m = (q.st k').nb + (q.st k').ng := rfl
  have z0 : lsum (dynL q k v) (.con k' r) = 0 := by
    unfold dynL
    split
    · rw [lsum_range]; simp
    · rfl
  unfold varL
  rw [lsum_append, lsum_append, lsum_append, lsum_append, z0]
  by_cases e : k = k'
  · subst e
    rw [if_pos rfl]
    have z2 : lsum (repL q k v) (.con k r) = 0 := by
      unfold repL
      split
      · split
        · rw [lsum_cons, if_neg (by simp only [Row.con.injEq, true_and]; omega)]; simp
        · rfl
      · rfl
    have z3 : lsum (repG q k v) (.con k r) = 0 := by
      refine lsum_zero fun e he => ?_
      obtain ⟨j, hj, rfl⟩ := List.mem_map.1 he
      simp only [ne_eq, Row.con.injEq, true_and]; omega
    have e1 : lsum (genL q k v) (.con k r) = if r < (q.st k).nb then 0 else (q.st k).DCt v (r - (q.st k).nb) := by
      unfold genL
      rw [lsum_range]
      simp only [Row.con.injEq, true_and]
      split
      · exact sum_eq_zero fun i _ => if_neg (by omega)
      · rw [sum_congr rfl fun i _ => show (if (q.st k).nb + i = r then (q.st k).DCt v i else 0)
            = if i = r - (q.st k).nb then (q.st k).DCt v i else 0 by
          have : ((q.st k).nb + i = r) ↔ i = r - (q.st k).nb := by omega
          simp only [this]]
        rw [sum_ite_eq', if_pos (Finset.mem_range.2 (by omega))]
    have e2 : lsum (bndL q k v) (.con k r) = if r < (q.st k).nb ∧ (q.st k).idxb r = v then 1 else 0 := by
      unfold bndL
      cases hb : boundOn q k v with
      | none =>
        rw [if_neg]; rfl
        rintro ⟨a, b⟩
        exact boundOn_none q hb r a b
      | some ii =>
        have h := (boundOn_iff q (hinj k)).1 hb
        rw [lsum_cons, lsum_nil, add_zero]
        simp only [Row.con.injEq, true_and]
        have : (ii = r) ↔ (r < (q.st k).nb ∧ (q.st k).idxb r = v) := by
          constructor
          · rintro rfl; exact h
          · rintro ⟨a, b⟩; exact hinj k ii h.1 r a (h.2.trans b.symm)
        simp only [this]
    rw [z2, z3, e1, e2]
    unfold coef
    by_cases hb : r < (q.st k).nb
    · simp [hb]
    · simp [hb]
  · rw [if_neg e]
    have : ∀ l : List (Row × K), (∀ x ∈ l, ∃ j, x.1 = .con k j) → lsum l (.con k' r) = 0 := by
      intro l hl
      refine lsum_zero fun x hx => ?_
      obtain ⟨j, hj⟩ := hl x hx
      rw [hj]
      simp [e]
    rw [this (bndL q k v), this (genL q k v), this (repL q k v), this (repG q k v)]
    · simp
    · intro x hx
      obtain ⟨j, hj, rfl⟩ := List.mem_map.1 hx
      exact ⟨_, rfl⟩
    · intro x hx
      unfold repL at hx
      split at hx
      · split at hx
        · rw [List.mem_singleton.1 hx]; exact ⟨_, rfl⟩
        · simp at hx
      · simp at hx
    · intro x hx
      obtain ⟨j, hj, rfl⟩ := List.mem_map.1 hx
      exact ⟨_, rfl⟩
    · intro x hx
      unfold bndL at hx
      split at hx
      · rw [List.mem_singleton.1 hx]; exact ⟨_, rfl⟩
      · simp at hx

/-- entries in the replicated row of a softened constraint -/
theorem var_rep (q : Qp K) (hinj : ∀ k, ∀ i < (q.st k).nb, ∀ j < (q.st k).nb, (q.st k).idxb i = (q.st k).idxb j → i = j)
    {k v k' r : Nat} (hr : r < (q.st k').m) (hs : soft q k' r = true) :
    lsum (varL q k v) (.con k' ((q.st k').m + cnt q k' r)) = if k = k' then coef (q.st k') v r else 0 := by
  have hm : (q.st k').m = (q.st k').nb + (q.st k').ng := rfl
  have z0 : lsum (dynL q k v) (.con k' ((q.st k').m + cnt q k' r)) = 0 := by
    unfold dynL
    split
    · rw [lsum_range]; simp
    · rfl
  by_cases e : k = k'
  · subst e
    rw [if_pos rfl]
    unfold varL
    rw [lsum_append, lsum_append, lsum_append, lsum_append, z0]
    have z2 : lsum (bndL q k v) (.con k ((q.st k).m + cnt q k r)) = 0 := by
      unfold bndL
      cases hb : boundOn q k v with
      | none => rfl
      | some ii =>
        have := (boundOn_some q hb).1
        rw [lsum_cons, if_neg (by simp only [Row.con.injEq, true_and]; omega)]; simp
    have z3 : lsum (genL q k v) (.con k ((q.st k).m + cnt q k r)) = 0 := by
      refine lsum_zero fun e he => ?_
      obtain ⟨j, hj, rfl⟩ := List.mem_map.1 he
      have := List.mem_range.1 hj
      simp only [ne_eq, Row.con.injEq, true_and]; omega
    have e1 : lsum (repG q k v) (.con k ((q.st k).m + cnt q k r)) = if r < (q.st k).nb then 0 else (q.st k).DCt v (r - (q.st k).nb) := by
      unfold repG softG
      rw [lsum_filter]
      have key : ∀ i ∈ range (q.st k).ng, (if soft q k ((q.st k).nb + i) = true then
          (if Row.con k ((q.st k).m + cnt q k ((q.st k).nb + i)) = Row.con k ((q.st k).m + cnt q k r) then (q.st k).DCt v i else 0) else 0)
          = if (q.st k).nb + i = r then (q.st k).DCt v i else 0 := by
        intro i _
        simp only [Row.con.injEq, true_and]
        by_cases h : (q.st k).nb + i = r
        · rw [h, if_pos hs, if_pos rfl, if_pos rfl]
        · rw [if_neg h]
          by_cases h2 : soft q k ((q.st k).nb + i) = true
          · rw [if_pos h2, if_neg]
            intro h3
            exact h (cnt_inj q h2 hs (by omega))
          · rw [if_neg h2]
      rw [sum_congr rfl key]
      split
      · exact sum_eq_zero fun i _ => if_neg (by omega)
      · rw [sum_congr rfl fun i _ => show (if (q.st k).nb + i = r then (q.st k).DCt v i else 0)
            = if i = r - (q.st k).nb then (q.st k).DCt v i else 0 by
          have : ((q.st k).nb + i = r) ↔ i = r - (q.st k).nb := by omega
          simp only [this]]
        rw [sum_ite_eq', if_pos (Finset.mem_range.2 (by omega))]
    have e2 : lsum (repL q k v) (.con k ((q.st k).m + cnt q k r)) = if r < (q.st k).nb ∧ (q.st k).idxb r = v then 1 else 0 := by
      unfold repL
      cases hb : boundOn q k v with
      | none =>
        rw [if_neg]; rfl
        rintro ⟨a, b⟩
        exact boundOn_none q hb r a b
      | some ii =>
        have h := (boundOn_iff q (hinj k)).1 hb
        dsimp only
        by_cases hsi : soft q k ii = true
        · rw [if_pos hsi, lsum_cons, lsum_nil, add_zero]
          simp only [Row.con.injEq, true_and]
          have : ((q.st k).m + cnt q k ii = (q.st k).m + cnt q k r) ↔ (r < (q.st k).nb ∧ (q.st k).idxb r = v) := by
            constructor
            · intro h3
              obtain rfl := cnt_inj q hsi hs (by omega)
              exact h
            · rintro ⟨a, b⟩; rw [hinj k ii h.1 r a (h.2.trans b.symm)]
          simp only [this]
        · rw [if_neg hsi, if_neg]; rfl
          rintro ⟨a, b⟩
          rw [hinj k ii h.1 r a (h.2.trans b.symm)] at hsi
          exact hsi hs
    rw [z2, z3, e1, e2]
    unfold coef
    by_cases hb : r < (q.st k).nb
    · simp [hb]
    · simp [hb]
  · rw [if_neg e]
    refine lsum_zero fun x hx => ?_
    rcases mem_varL q hx with ⟨_, j, _, h⟩ | ⟨j, _, h⟩ | ⟨j, _, _, h⟩ <;> rw [h] <;> simp [e]

/-- entries in a replicated row that belongs to no constraint -/
theorem var_unused (q : Qp K) {k v k' c : Nat} (hc : cnt q k' (q.st k').m ≤ c) :
    lsum (varL q k v) (.con k' ((q.st k').m + c)) = 0 := by
  refine lsum_zero fun x hx => ?_
  rcases mem_varL q hx with ⟨_, j, _, h⟩ | ⟨j, hj, h⟩ | ⟨j, hj, hs, h⟩ <;> rw [h]
  · simp
  · rintro h
    simp only [Row.con.injEq] at h
    obtain ⟨rfl, h⟩ := h
    omega
  · rintro h
    simp only [Row.con.injEq] at h
    obtain ⟨rfl, h⟩ := h
    have := cnt_lt q hj hs
    omega

theorem var_slk (q : Qp K) {k v k' s : Nat} : lsum (varL q k v) (.slk k' s) = 0 := by
  refine lsum_zero fun x hx => ?_
  rcases mem_varL q hx with ⟨_, j, _, h⟩ | ⟨j, _, h⟩ | ⟨j, _, _, h⟩ <;> rw [h] <;> simp

theorem eye_dyn {k jj k' j : Nat} : lsum (eyeL (K := K) k jj) (.dyn k' j) = if k = k' + 1 ∧ jj = j then -1 else 0 := by
  unfold eyeL
  by_cases h0 : 0 < k
  · rw [if_pos h0, lsum_cons, lsum_nil, add_zero]
    simp only [Row.dyn.injEq]
    have : (k - 1 = k' ∧ jj = j) ↔ (k = k' + 1 ∧ jj = j) := by omega
    simp only [this]
  · rw [if_neg h0, if_neg (by omega)]; rfl

theorem eye_con {k jj k' j : Nat} : lsum (eyeL (K := K) k jj) (.con k' j) = 0 ∧ lsum (eyeL (K := K) k jj) (.slk k' j) = 0 := by
  unfold eyeL
  split <;> simp [lsum_cons]

theorem sl_con (q : Qp K) {k jj k' r : Nat} (hr : r < (q.st k').m) :
    lsum (slL q k jj) (.con k' r) = if k = k' ∧ (q.st k').idxs r = (jj : Int) then 1 else 0 := by
  unfold slL softRows
  rw [lsum_append, lsum_filter, lsum_cons, lsum_nil, if_neg (c := Row.slk k jj = _) (by simp), add_zero, add_zero]
  by_cases e : k = k'
  · subst e
    simp only [Row.con.injEq, true_and, beq_iff_eq]
    rw [sum_congr rfl fun i _ => show (if (q.st k).idxs i = (jj : Int) then (if i = r then (1 : K) else 0) else 0)
      = if i = r then (if (q.st k).idxs r = (jj : Int) then 1 else 0) else 0 by
        by_cases h : i = r
        · subst h; simp
        · simp [h]]
    rw [sum_ite_eq', if_pos (c := r ∈ range ((q.st k).nb + (q.st k).ng)) (Finset.mem_range.2 hr)]
  · simp [e]

theorem sl_rep (q : Qp K) {k jj k' c : Nat} : lsum (slL q k jj) (.con k' ((q.st k').m + c)) = 0 := by
  refine lsum_zero fun x hx => ?_
  rcases List.mem_append.1 hx with hx | hx
  · obtain ⟨ii, hii, rfl⟩ := List.mem_map.1 hx
    have := (soft_softRows q hii).1
    rintro h
    simp only [Row.con.injEq] at h
    obtain ⟨rfl, h⟩ := h
    omega
  · rw [List.mem_singleton.1 hx]; simp

theorem sl_dyn (q : Qp K) {k jj k' j : Nat} :
    lsum (slL q k jj) (.dyn k' j) = 0 ∧ lsum (suL q k jj) (.dyn k' j) = 0 := by
  constructor
  · refine lsum_zero fun x hx => ?_
    rcases List.mem_append.1 hx with hx | hx
    · obtain ⟨ii, hii, rfl⟩ := List.mem_map.1 hx; simp
    · rw [List.mem_singleton.1 hx]; simp
  · refine lsum_zero fun x hx => ?_
    rcases List.mem_append.1 hx with hx | hx
    · obtain ⟨ii, hii, rfl⟩ := List.mem_map.1 hx; simp
    · rw [List.mem_singleton.1 hx]; simp

theorem su_con (q : Qp K) {k jj k' r : Nat} (hr : r < (q.st k').m) : lsum (suL q k jj) (.con k' r) = 0 := by
  refine lsum_zero fun x hx => ?_
  rcases List.mem_append.1 hx with hx | hx
  · obtain ⟨ii, hii, rfl⟩ := List.mem_map.1 hx
    rintro h
    simp only [Row.con.injEq] at h
    obtain ⟨rfl, h⟩ := h
    omega
  · rw [List.mem_singleton.1 hx]; simp

theorem su_rep (q : Qp K) {k jj k' r : Nat} (hr : r < (q.st k').m) (hs : soft q k' r = true) :
    lsum (suL q k jj) (.con k' ((q.st k').m + cnt q k' r)) = if k = k' ∧ (q.st k').idxs r = (jj : Int) then -1 else 0 := by
  unfold suL softRows
  rw [lsum_append, lsum_filter, lsum_cons, lsum_nil, if_neg (c := Row.slk k _ = _) (by simp), add_zero, add_zero]
  by_cases e : k = k'
  · subst e
    simp only [Row.con.injEq, true_and, beq_iff_eq]
    rw [sum_congr rfl fun i _ => show (if (q.st k).idxs i = (jj : Int) then (if (q.st k).m + cnt q k i = (q.st k).m + cnt q k r then (-1 : K) else 0) else 0)
      = if i = r then (if (q.st k).idxs r = (jj : Int) then -1 else 0) else 0 by
        by_cases h : i = r
        · subst h; simp
        · rw [if_neg h]
          by_cases h2 : (q.st k).idxs i = (jj : Int)
          · rw [if_pos h2, if_neg]
            intro h3
            exact h (cnt_inj q ((soft_iff q k i).2 (by rw [h2]; omega)) hs (by omega))
          · rw [if_neg h2]]
    rw [sum_ite_eq', if_pos (c := r ∈ range ((q.st k).nb + (q.st k).ng)) (Finset.mem_range.2 hr)]
  · simp [e]

theorem su_unused (q : Qp K) {k jj k' c : Nat} (hc : cnt q k' (q.st k').m ≤ c) : lsum (suL q k jj) (.con k' ((q.st k').m + c)) = 0 := by
  refine lsum_zero fun x hx => ?_
  rcases List.mem_append.1 hx with hx | hx
  · obtain ⟨ii, hii, rfl⟩ := List.mem_map.1 hx
    rintro h
    simp only [Row.con.injEq] at h
    obtain ⟨rfl, h⟩ := h
    have := cnt_lt q (soft_softRows q hii).1 (soft_softRows q hii).2
    omega
  · rw [List.mem_singleton.1 hx]; simp

theorem sl_slk (q : Qp K) {k jj k' s : Nat} : lsum (slL q k jj) (.slk k' s) = if k = k' ∧ jj = s then 1 else 0 := by
  unfold slL softRows
  rw [lsum_append, lsum_filter, lsum_cons, lsum_nil]
  simp

theorem su_slk (q : Qp K) {k jj k' s : Nat} : lsum (suL q k jj) (.slk k' s) = if k = k' ∧ (q.st k).ns + jj = s then 1 else 0 := by
  unfold suL softRows
  rw [lsum_append, lsum_filter, lsum_cons, lsum_nil]
  simp

/-! ## the product with a vector, row by row -/

theorem mulVec_eq (q : Qp K) (hf : Fits q) (v : Nat → K) {R : Row} (hR : Ok q R) :
    (mat q (oR q) (oV q)).mulVec (numVars q) v (addr q R)
      = ∑ k ∈ range (q.N + 1), ∑ i ∈ range (nv q k), lsum (oL q k i) R * v (off (nv q) k + i) := by
  unfold Csc.mulVec numVars
  rw [sum_off]
  refine sum_congr rfl fun k hk => sum_congr rfl fun i hi => ?_
  have hk' := Finset.mem_range.1 hk
  show rowSum ((mat q (oR q) (oV q)).col _) _ * _ = _
  rw [mat_col q _ _ (fun k _ i _ => olen q k i) (by omega) (Finset.mem_range.1 hi), ozip q (by omega),
    rowSum_place q _ (ok_oL q hf (by omega) (Finset.mem_range.1 hi)) hR]

theorem sum_pick (q : Qp K) (k : Nat) (R : Row) (v : Nat → K) :
    ∑ i ∈ range (nv q k), lsum (oL q k i) R * v i
      = (∑ i ∈ range (q.nu k + q.nx k), lsum (varL q k i) R * v i) +
        (∑ j ∈ range (q.nx k), lsum (eyeL k j) R * v (q.nu k + j)) +
        (∑ j ∈ range (q.st k).ns, lsum (slL q k j) R * v (q.nu k + q.nx k + j)) +
        ∑ j ∈ range (q.st k).ns, lsum (suL q k j) R * v (q.nu k + q.nx k + (q.st k).ns + j) := by
  have hnv : nv q k = q.nu k + q.nx k + (q.st k).ns + (q.st k).ns := by unfold nv; omega
  rw [hnv, Finset.sum_range_add, Finset.sum_range_add, Finset.sum_range_add]
  have h1 : ∀ i ∈ range (q.nu k), lsum (oL q k i) R * v i = lsum (varL q k i) R * v i := by
    intro i hi
    have := Finset.mem_range.1 hi
    unfold oL pick
    rw [if_pos (by omega), if_pos (by omega), if_pos this]
  have h2 : ∀ j ∈ range (q.nx k), lsum (oL q k (q.nu k + j)) R * v (q.nu k + j)
      = lsum (varL q k (q.nu k + j)) R * v (q.nu k + j) + lsum (eyeL k j) R * v (q.nu k + j) := by
    intro i hi
    have := Finset.mem_range.1 hi
    unfold oL pick
    rw [if_pos (by omega), if_pos (by omega), if_neg (by omega), Nat.add_sub_cancel_left, lsum_append, add_mul, add_comm]
  have h3 : ∀ j ∈ range (q.st k).ns, lsum (oL q k (q.nu k + q.nx k + j)) R * v (q.nu k + q.nx k + j)
      = lsum (slL q k j) R * v (q.nu k + q.nx k + j) := by
    intro i hi
    have := Finset.mem_range.1 hi
    unfold oL pick
    rw [if_pos (by omega), if_neg (by omega), Nat.add_sub_cancel_left]
  have h4 : ∀ j ∈ range (q.st k).ns, lsum (oL q k (q.nu k + q.nx k + (q.st k).ns + j)) R * v (q.nu k + q.nx k + (q.st k).ns + j)
      = lsum (suL q k j) R * v (q.nu k + q.nx k + (q.st k).ns + j) := by
    intro i hi
    have := Finset.mem_range.1 hi
    unfold oL pick
    rw [if_neg (by omega), Nat.add_sub_cancel_left]
  rw [sum_congr rfl h1, sum_congr rfl h2, sum_congr rfl h3, sum_congr rfl h4, sum_add_distrib, Finset.sum_range_add]
  ring

/-- collect the four kinds of columns in a row -/
theorem mulVec_row (q : Qp K) (hf : Fits q) (v : Nat → K) {R : Row} (hR : Ok q R) (a b c d : Nat → K)
    (ha : ∀ k ≤ q.N, ∑ i ∈ range (q.nu k + q.nx k), lsum (varL q k i) R * part q v k i = a k)
    (hb : ∀ k ≤ q.N, ∑ j ∈ range (q.nx k), lsum (eyeL k j) R * part q v k (q.nu k + j) = b k)
    (hc : ∀ k ≤ q.N, ∑ j ∈ range (q.st k).ns, lsum (slL q k j) R * part q v k (q.nu k + q.nx k + j) = c k)
    (hd : ∀ k ≤ q.N, ∑ j ∈ range (q.st k).ns, lsum (suL q k j) R * part q v k (q.nu k + q.nx k + (q.st k).ns + j) = d k) :
    (mat q (oR q) (oV q)).mulVec (numVars q) v (addr q R) = ∑ k ∈ range (q.N + 1), (a k + b k + c k + d k) := by
  rw [mulVec_eq q hf v hR]
  refine sum_congr rfl fun k hk => ?_
  have hk' : k ≤ q.N := by have := Finset.mem_range.1 hk; omega
  have := sum_pick q k R (part q v k)
  rw [ha k hk', hb k hk', hc k hk', hd k hk'] at this
  exact this

theorem mulVec_dyn (q : Qp K) (hf : Fits q) (v : Nat → K) {k j : Nat} (hk : k < q.N) (hj : j < q.nx (k + 1)) :
    (mat q (oR q) (oV q)).mulVec (numVars q) v (addr q (.dyn k j))
      = (∑ i ∈ range (q.nu k + q.nx k), (q.st k).BAbt i j * part q v k i) - part q v (k + 1) (q.nu (k + 1) + j) := by
  rw [mulVec_row q hf v (R := .dyn k j) ⟨hk, hj⟩
    (fun k' => if k' = k then ∑ i ∈ range (q.nu k + q.nx k), (q.st k).BAbt i j * part q v k i else 0)
    (fun k' => if k' = k + 1 then - part q v (k + 1) (q.nu (k + 1) + j) else 0) (fun _ => 0) (fun _ => 0)]
  · simp only [add_zero, sum_add_distrib]
    rw [sum_ite_eq', sum_ite_eq', if_pos (Finset.mem_range.2 (by omega)), if_pos (Finset.mem_range.2 (by omega))]; ring
  · intro k' _
    by_cases e : k' = k
    · subst e
      rw [if_pos rfl]
      exact sum_congr rfl fun i _ => by rw [var_dyn q hk hj, if_pos rfl]
    · rw [if_neg e]
      exact sum_eq_zero fun i _ => by rw [var_dyn q hk hj, if_neg e, zero_mul]
  · intro k' _
    by_cases e : k' = k + 1
    · subst e
      rw [if_pos rfl]
      simp only [eye_dyn, true_and, ite_mul, zero_mul, neg_mul, one_mul]
      rw [sum_ite_eq', if_pos (Finset.mem_range.2 hj)]
    · rw [if_neg e]
      exact sum_eq_zero fun i _ => by rw [eye_dyn, if_neg (fun h => e h.1), zero_mul]
  · exact fun k' _ => sum_eq_zero fun i _ => by rw [(sl_dyn q).1, zero_mul]
  · exact fun k' _ => sum_eq_zero fun i _ => by rw [(sl_dyn q).2, zero_mul]

theorem mulVec_con (q : Qp K) (wf : WF q) (hf : Fits q)
    (hinj : ∀ k, ∀ i < (q.st k).nb, ∀ j < (q.st k).nb, (q.st k).idxb i = (q.st k).idxb j → i = j)
    (v : Nat → K) {k r : Nat} (hk : k ≤ q.N) (hr : r < (q.st k).m) :
    (mat q (oR q) (oV q)).mulVec (numVars q) v (addr q (.con k r)) = (q.st k).lhs (part q v k) r + (q.st k).sl (part q v k) r := by
  rw [mulVec_row q hf v (R := .con k r) (ok_con q hk hr)
    (fun k' => if k' = k then (q.st k).lhs (part q v k) r else 0) (fun _ => 0)
    (fun k' => if k' = k then (q.st k).sl (part q v k) r else 0) (fun _ => 0)]
  · simp only [add_zero, sum_add_distrib]
    rw [sum_ite_eq', sum_ite_eq', if_pos (Finset.mem_range.2 (by omega)), if_pos (Finset.mem_range.2 (by omega))]
  · intro k' _
    by_cases e : k' = k
    · subst e
      rw [if_pos rfl, ← coef_lhs q wf k' _ hr]
      exact sum_congr rfl fun i _ => by rw [var_con q hinj hr, if_pos rfl]
    · rw [if_neg e]
      exact sum_eq_zero fun i _ => by rw [var_con q hinj hr, if_neg e, zero_mul]
  · exact fun k' _ => sum_eq_zero fun i _ => by rw [eye_con.1, zero_mul]
  · intro k' _
    by_cases e : k' = k
    · subst e
      rw [if_pos rfl]
      unfold Stage.sl
      rw [← soft_sum q wf k' hr (fun j => part q v k' ((q.st k').nux + j))]
      refine sum_congr rfl fun j _ => ?_
      rw [sl_con q hr, wf.nux]
      simp only [true_and, ite_mul, one_mul, zero_mul]
    · rw [if_neg e]
      exact sum_eq_zero fun i _ => by rw [sl_con q hr, if_neg (fun h => e h.1), zero_mul]
  · exact fun k' _ => sum_eq_zero fun i _ => by rw [su_con q hr, zero_mul]

theorem mulVec_rep (q : Qp K) (wf : WF q) (hf : Fits q)
    (hinj : ∀ k, ∀ i < (q.st k).nb, ∀ j < (q.st k).nb, (q.st k).idxb i = (q.st k).idxb j → i = j)
    (v : Nat → K) {k r : Nat} (hk : k ≤ q.N) (hr : r < (q.st k).m) (hs : soft q k r = true) :
    (mat q (oR q) (oV q)).mulVec (numVars q) v (addr q (.con k ((q.st k).m + cnt q k r)))
      = (q.st k).lhs (part q v k) r - (q.st k).su (part q v k) r := by
  rw [mulVec_row q hf v (R := .con k ((q.st k).m + cnt q k r)) (ok_rep q hf hk hr hs)
    (fun k' => if k' = k then (q.st k).lhs (part q v k) r else 0) (fun _ => 0) (fun _ => 0)
    (fun k' => if k' = k then - (q.st k).su (part q v k) r else 0)]
  · simp only [add_zero, sum_add_distrib]
    rw [sum_ite_eq', sum_ite_eq', if_pos (Finset.mem_range.2 (by omega)), if_pos (Finset.mem_range.2 (by omega))]; ring
  · intro k' _
    by_cases e : k' = k
    · subst e
      rw [if_pos rfl, ← coef_lhs q wf k' _ hr]
      exact sum_congr rfl fun i _ => by rw [var_rep q hinj hr hs, if_pos rfl]
    · rw [if_neg e]
      exact sum_eq_zero fun i _ => by rw [var_rep q hinj hr hs, if_neg e, zero_mul]
  · exact fun k' _ => sum_eq_zero fun i _ => by rw [eye_con.1, zero_mul]
  · exact fun k' _ => sum_eq_zero fun i _ => by rw [sl_rep q, zero_mul]
  · intro k' _
    by_cases e : k' = k
    · subst e
      rw [if_pos rfl]
      unfold Stage.su
      rw [← soft_sum q wf k' hr (fun j => part q v k' ((q.st k').nux + (q.st k').ns + j)), ← sum_neg_distrib]
      refine sum_congr rfl fun j _ => ?_
      rw [su_rep q hr hs, wf.nux]
      by_cases h : (q.st k').idxs r = (j : Int)
      · rw [if_pos ⟨rfl, h⟩, if_pos h]; ring
      · rw [if_neg (fun a => h a.2), if_neg h]; ring
    · rw [if_neg e]
      exact sum_eq_zero fun i _ => by rw [su_rep q hr hs, if_neg (fun h => e h.1), zero_mul]

theorem mulVec_unused (q : Qp K) (hf : Fits q) (v : Nat → K) {k c : Nat} (hk : k ≤ q.N) (hc : cnt q k (q.st k).m ≤ c)
    (hc' : c < (q.st k).ns) : (mat q (oR q) (oV q)).mulVec (numVars q) v (addr q (.con k ((q.st k).m + c))) = 0 := by
  have h1 : conLen q k = (q.st k).m + (q.st k).ns := rfl
  rw [mulVec_row q hf v (R := .con k ((q.st k).m + c)) ⟨hk, by omega⟩ (fun _ => 0) (fun _ => 0) (fun _ => 0) (fun _ => 0)]
  · simp
  · exact fun k' _ => sum_eq_zero fun i _ => by rw [var_unused q hc, zero_mul]
  · exact fun k' _ => sum_eq_zero fun i _ => by rw [eye_con.1, zero_mul]
  · exact fun k' _ => sum_eq_zero fun i _ => by rw [sl_rep q, zero_mul]
  · exact fun k' _ => sum_eq_zero fun i _ => by rw [su_unused q hc, zero_mul]

theorem mulVec_slk (q : Qp K) (wf : WF q) (hf : Fits q) (v : Nat → K) {k s : Nat} (hk : k ≤ q.N) (hs : s < 2 * (q.st k).ns) :
    (mat q (oR q) (oV q)).mulVec (numVars q) v (addr q (.slk k s)) = part q v k ((q.st k).nux + s) := by
  rw [mulVec_row q hf v (R := .slk k s) ⟨hk, hs⟩ (fun _ => 0) (fun _ => 0)
    (fun k' => if k' = k then (if s < (q.st k).ns then part q v k ((q.st k).nux + s) else 0) else 0)
    (fun k' => if k' = k then (if s < (q.st k).ns then 0 else part q v k ((q.st k).nux + s)) else 0)]
  · simp only [zero_add, sum_add_distrib]
    rw [sum_ite_eq', sum_ite_eq', if_pos (Finset.mem_range.2 (by omega)), if_pos (Finset.mem_range.2 (by omega))]
    split <;> simp
  · exact fun k' _ => sum_eq_zero fun i _ => by rw [var_slk q, zero_mul]
  · exact fun k' _ => sum_eq_zero fun i _ => by rw [eye_con.2, zero_mul]
  · intro k' _
    by_cases e : k' = k
    · subst e
      rw [if_pos rfl]
      simp only [sl_slk, true_and, ite_mul, one_mul, zero_mul]
      rw [sum_ite_eq', wf.nux]
      simp only [Finset.mem_range]
    · rw [if_neg e]
      exact sum_eq_zero fun i _ => by rw [sl_slk q, if_neg (fun h => e h.1), zero_mul]
  · intro k' _
    by_cases e : k' = k
    · subst e
      rw [if_pos rfl]
      rw [sum_congr rfl fun j _ => show lsum (suL q k' j) (.slk k' s) * part q v k' (q.nu k' + q.nx k' + (q.st k').ns + j)
          = if s - (q.st k').ns = j then (if s < (q.st k').ns then 0 else part q v k' ((q.st k').nux + s)) else 0 by
        rw [su_slk]
        by_cases h : (q.st k').ns + j = s
        · rw [if_pos ⟨rfl, h⟩, if_pos (by omega), if_neg (by omega), one_mul, wf.nux, ← h, Nat.add_assoc _ (q.st k').ns j]
        · rw [if_neg (fun a => h a.2), zero_mul]
          by_cases h2 : s - (q.st k').ns = j
          · rw [if_pos h2, if_pos (by omega)]
          · rw [if_neg h2]]
      rw [sum_ite_eq, if_pos (Finset.mem_range.2 (by omega))]
    · rw [if_neg e]
      exact sum_eq_zero fun i _ => by rw [su_slk q, if_neg (fun h => e h.1), zero_mul]

end Acados.SparseQp.Osqp
