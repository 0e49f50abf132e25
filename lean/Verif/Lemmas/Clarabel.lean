import Verif.Lemmas.SparseQp
/-! # Lemmas about the constraint matrix for Clarabel -/
namespace Acados.SparseQp.Clarabel
open Acados.QpScal Acados.Csc Finset
variable {K : Type*} [Field K] [LinearOrder K]

/-- the column of position `i` among the variables of stage `k` -/
def pick {α : Type*} (q : Qp K) (k i : Nat) (U X Sl Su : Nat → α) : α :=
  if i < q.nu k + q.nx k + (q.st k).ns then
    (if i < q.nu k + q.nx k then (if i < q.nu k then U i else X (i - q.nu k)) else Sl (i - (q.nu k + q.nx k)))
  else Su (i - (q.nu k + q.nx k + (q.st k).ns))

def cR (q : Qp K) (k i : Nat) : List Nat := pick q k i (rowsU q k) (rowsX q k) (rowsSl q k) (rowsSu q k)
def cV (q : Qp K) (k i : Nat) : List K := pick q k i (valsU q k) (valsX q k) (valsSl q k) (valsSu q k)

theorem pick_map {α : Type*} (q : Qp K) (k : Nat) (U X Sl Su : Nat → α) :
    (List.range (q.nu k)).map U ++ (List.range (q.nx k)).map X ++ (List.range (q.st k).ns).map Sl ++
      (List.range (q.st k).ns).map Su = (List.range (nv q k)).map fun i => pick q k i U X Sl Su := by
  rw [range_append, range_append, range_append]
  have : nv q k = q.nu k + q.nx k + (q.st k).ns + (q.st k).ns := by unfold nv; omega
  rw [this]; rfl

theorem con_mat (q : Qp K) :
    (⟨(conStructure q).p, (conStructure q).i, conData q⟩ : Csc K) = mat q (cR q) (cV q) := by
  have h1 : (List.range (q.N + 1)).flatMap (stageRows q) = blocks (nv q) (cR q) (q.N + 1) := by
    simp only [blocks]; congr 1; funext k; exact pick_map q k _ _ _ _
  have h2 : (List.range (q.N + 1)).flatMap (stageVals q) = blocks (nv q) (cV q) (q.N + 1) := by
    simp only [blocks]; congr 1; funext k; exact pick_map q k _ _ _ _
  rw [conStructure, conData, build_eq, h1, h2]; rfl

/-! ## entries of a column -/

/-- first row of the inequality block of stage `k` -/
def c0 (q : Qp K) (k : Nat) : Nat := conStart q + off (conLen q) k
/-- first row of the slack bounds of stage `k` -/
def s0 (q : Qp K) (k : Nat) : Nat := slkStart q + off (slkLen q) k

def bndE (q : Qp K) (k v : Nat) : List (Nat × K) :=
  match boundOn q k v with
  | some ii => [(c0 q k + ii, -1), (c0 q k + (q.st k).nb + (q.st k).ng + ii, 1)]
  | none => []

def varE (q : Qp K) (k v : Nat) : List (Nat × K) :=
  (if k < q.N then (List.range (q.nx (k + 1))).map fun ii => (off (dynLen q) k + ii, (q.st k).BAbt v ii) else []) ++
  bndE q k v ++
  ((List.range (q.st k).ng).map fun ii => (c0 q k + (q.st k).nb + ii, - (q.st k).DCt v ii)) ++
  ((List.range (q.st k).ng).map fun ii => (c0 q k + 2 * (q.st k).nb + (q.st k).ng + ii, (q.st k).DCt v ii))

def eyeE (q : Qp K) (k jj : Nat) : List (Nat × K) :=
  if 0 < k then [(off (dynLen q) k - q.nx k + jj, -1)] else []

def slE (q : Qp K) (k jj : Nat) : List (Nat × K) :=
  ((softRows q k jj).map fun ii => (c0 q k + ii, -1)) ++ [(s0 q k + jj, -1)]
def suE (q : Qp K) (k jj : Nat) : List (Nat × K) :=
  ((softRows q k jj).map fun ii => (c0 q k + (q.st k).nb + (q.st k).ng + ii, -1)) ++ [(s0 q k + (q.st k).ns + jj, -1)]

def cE (q : Qp K) (k i : Nat) : List (Nat × K) :=
  pick q k i (varE q k) (fun jj => eyeE q k jj ++ varE q k (q.nu k + jj)) (slE q k) (suE q k)

theorem varLen (q : Qp K) (k v : Nat) : (varRows q k v).length = (varVals q k v).length := by
  unfold varRows varVals
  dsimp only
  cases boundOn q k v <;> by_cases h : k < q.N <;> simp [h]

theorem varZip (q : Qp K) (k v : Nat) : (varRows q k v).zip (varVals q k v) = varE q k v := by
  unfold varRows varVals varE bndE
  dsimp only
  cases boundOn q k v <;> by_cases h : k < q.N
  all_goals
    simp only [h, if_true, if_false]
    rw [List.zip_append (by simp), List.zip_append (by simp), List.zip_append (by simp), zip_map, zip_map]
    try rw [zip_map]
    rfl

theorem clen (q : Qp K) (k i : Nat) : (cR q k i).length = (cV q k i).length := by
  unfold cR cV pick
  split
  · split
    · split
      · exact varLen q k _
      · unfold rowsX valsX
        rw [List.length_append, List.length_append, varLen]
        split <;> rfl
    · simp [rowsSl, valsSl]
  · simp [rowsSu, valsSu]

theorem czip (q : Qp K) (k i : Nat) : (cR q k i).zip (cV q k i) = cE q k i := by
  unfold cR cV cE pick
  split
  · split
    · split
      · exact varZip q k _
      · unfold rowsX valsX eyeE
        by_cases h : 0 < k
        · simp only [h, if_true]
          rw [List.zip_append (by simp), varZip]; rfl
        · simp only [h, if_false]
          rw [List.nil_append, List.nil_append, List.nil_append, varZip]
    · unfold rowsSl valsSl slE
      rw [List.zip_append (by simp), zip_map]; rfl
  · unfold rowsSu valsSu suE
    rw [List.zip_append (by simp), zip_map]; rfl

/-! ## positions of the rows -/

theorem dyn_lt (q : Qp K) {k j : Nat} (hk : k < q.N) (hj : j < q.nx (k + 1)) : off (dynLen q) k + j < conStart q := by
  have := off_block (dynLen q) (show k < q.N + 1 by omega)
  have e : dynLen q k = q.nx (k + 1) := if_pos hk
  unfold conStart; omega

theorem dyn_last (q : Qp K) : off (dynLen q) (q.N + 1) = off (dynLen q) q.N := by
  show off (dynLen q) q.N + dynLen q q.N = _
  simp [dynLen]

/-- the negative identity of stage `k > 0` sits in the dynamics rows of stage `k - 1` -/
theorem eye_row (q : Qp K) {k : Nat} (h : 0 < k) (hk : k ≤ q.N) (jj : Nat) :
    off (dynLen q) k - q.nx k + jj = off (dynLen q) (k - 1) + jj := by
  obtain ⟨k, rfl⟩ : ∃ k', k = k' + 1 := ⟨k - 1, by omega⟩
  have e : dynLen q k = q.nx (k + 1) := if_pos (by omega)
  show off (dynLen q) k + dynLen q k - _ + _ = off (dynLen q) k + jj
  omega

theorem con_lt (q : Qp K) {k : Nat} (hk : k ≤ q.N) : c0 q k + conLen q k ≤ slkStart q := by
  have := off_block (conLen q) (show k < q.N + 1 by omega)
  unfold c0 slkStart; omega

theorem numConstr_eq (q : Qp K) : numConstr q = slkStart q + off (slkLen q) (q.N + 1) := by
  have : ∀ n, off (fun k => 2 * (q.st k).nb + 2 * (q.st k).ng + 2 * (q.st k).ns + dynLen q k) n
      = off (dynLen q) n + off (conLen q) n + off (slkLen q) n := by
    intro n
    induction n with
    | zero => rfl
    | succ n ih => simp only [off, conLen, slkLen] at *; omega
  unfold numConstr slkStart conStart; rw [this]; omega

theorem slk_lt (q : Qp K) {k : Nat} (hk : k ≤ q.N) : s0 q k + slkLen q k ≤ numConstr q := by
  have := off_block (slkLen q) (show k < q.N + 1 by omega)
  rw [numConstr_eq]; unfold s0; omega

/-! ## the entries of the column of `k`, `i` in every row -/

section rows
variable (q : Qp K)

theorem block_out {n base r : Nat} {f : Nat → K} (h : r < base ∨ base + n ≤ r) :
    rowSum ((List.range n).map fun i => (base + i, f i)) r = 0 := by
  rw [rowSum_block, if_neg (by omega)]

theorem block_in {n base r : Nat} {f : Nat → K} (h : base ≤ r ∧ r < base + n) :
    rowSum ((List.range n).map fun i => (base + i, f i)) r = f (r - base) := by
  rw [rowSum_block, if_pos h]

theorem rowSum_bnd_dyn {k v r : Nat} (hr : r < conStart q) : rowSum (bndE q k v) r = 0 := by
  have : conStart q ≤ c0 q k := Nat.le_add_right _ _
  unfold bndE
  split
  · rw [rowSum_cons, rowSum_cons, rowSum_nil, if_neg (by dsimp only; omega), if_neg (by dsimp only; omega)]; simp
  · rfl

theorem rowSum_var_dyn {k v k' j : Nat} (hk : k ≤ q.N) (hk' : k' < q.N) (hj : j < q.nx (k' + 1)) :
    rowSum (varE q k v) (off (dynLen q) k' + j) = if k = k' then (q.st k').BAbt v j else 0 := by
  have h1 : conStart q ≤ c0 q k := Nat.le_add_right _ _
  have h2 := dyn_lt q hk' hj
  unfold varE
  rw [rowSum_append, rowSum_append, rowSum_append, rowSum_bnd_dyn q h2,
    block_out (base := c0 q k + (q.st k).nb) (by omega),
    block_out (base := c0 q k + 2 * (q.st k).nb + (q.st k).ng) (by omega), add_zero, add_zero, add_zero]
  by_cases hN : k < q.N
  · rw [if_pos hN, rowSum_block]
    by_cases e : k = k'
    · subst e
      rw [if_pos (by omega), if_pos rfl, Nat.add_sub_cancel_left]
    · rw [if_neg e, if_neg]
      rintro ⟨a, b⟩
      have e1 : dynLen q k = q.nx (k + 1) := if_pos hN
      have e2 : dynLen q k' = q.nx (k' + 1) := if_pos hk'
      exact e (off_inj (dynLen q) (k := k) (k' := k') (i := off (dynLen q) k' + j - off (dynLen q) k) (i' := j)
        (by omega) (by omega) (by omega)).1
  · rw [if_neg hN, rowSum_nil, if_neg (by omega)]

theorem rowSum_eye_dyn {k jj k' j : Nat} (hk : k ≤ q.N) (hjj : jj < q.nx k) (hk' : k' < q.N) (hj : j < q.nx (k' + 1)) :
    rowSum (eyeE q k jj) (off (dynLen q) k' + j) = if k = k' + 1 ∧ jj = j then -1 else 0 := by
  unfold eyeE
  by_cases h0 : 0 < k
  · rw [if_pos h0, rowSum_cons, rowSum_nil, add_zero]
    dsimp only
    rw [eye_row q h0 hk]
    have e1 : dynLen q (k - 1) = q.nx k := by
      rw [show dynLen q (k - 1) = q.nx (k - 1 + 1) from if_pos (by omega), Nat.sub_add_cancel h0]
    have e2 : dynLen q k' = q.nx (k' + 1) := if_pos hk'
    by_cases e : k = k' + 1 ∧ jj = j
    · rw [if_pos e, if_pos]
      obtain ⟨rfl, rfl⟩ := e; rfl
    · rw [if_neg e, if_neg]
      intro h
      have := off_inj (dynLen q) (i := jj) (i' := j) (by omega) (by omega) h
      omega
  · rw [if_neg h0, rowSum_nil, if_neg (by omega)]

theorem rowSum_eye_con {k jj r : Nat} (hk : k ≤ q.N) (hjj : jj < q.nx k) (hr : conStart q ≤ r) :
    rowSum (eyeE q k jj) r = 0 := by
  unfold eyeE
  split
  · rename_i h0
    rw [rowSum_cons, rowSum_nil, add_zero, if_neg]
    dsimp only
    rw [eye_row q h0 hk]
    have := dyn_lt q (k := k - 1) (j := jj) (by omega) (by rwa [Nat.sub_add_cancel h0])
    omega
  · rfl

/-- a row offset that lies in the inequality block of stage `k'` lies in the one of `k` only if they agree -/
theorem con_sep {k k' a : Nat} (ha : a < conLen q k') (b : Nat) (hb : b < conLen q k) (h : k ≠ k') :
    c0 q k + b ≠ c0 q k' + a := by
  intro e
  unfold c0 at e
  exact h (off_inj (conLen q) hb ha (by omega)).1

theorem rowSum_bnd_con (hinj : ∀ k, ∀ i < (q.st k).nb, ∀ j < (q.st k).nb, (q.st k).idxb i = (q.st k).idxb j → i = j)
    {k v k' r : Nat} (hr : r < (q.st k').nb + (q.st k').ng) :
    rowSum (bndE q k v) (c0 q k' + r) = if k = k' ∧ r < (q.st k').nb ∧ (q.st k').idxb r = v then -1 else 0 := by
  have hl : ∀ k, conLen q k = 2 * (q.st k).nb + 2 * (q.st k).ng := fun _ => rfl
  unfold bndE
  cases hb : boundOn q k v with
  | some ii =>
    have h := (boundOn_iff q (hinj k)).1 hb
    simp only [rowSum_cons, rowSum_nil, add_zero]
    by_cases e : k = k'
    · subst e
      rw [if_neg (c := c0 q k + (q.st k).nb + (q.st k).ng + ii = c0 q k + r) (by omega), add_zero]
      have : (c0 q k + ii = c0 q k + r) ↔ (k = k ∧ r < (q.st k).nb ∧ (q.st k).idxb r = v) := by
        constructor
        · intro e
          obtain rfl : ii = r := by omega
          exact ⟨rfl, h⟩
        · rintro ⟨_, a, b⟩
          rw [hinj k ii h.1 r a (h.2.trans b.symm)]
      simp only [this]
    · rw [if_neg (con_sep q (by rw [hl]; omega) _ (by rw [hl]; omega) e),
        if_neg (by rw [Nat.add_assoc, Nat.add_assoc]; exact con_sep q (by rw [hl]; omega) _ (by rw [hl]; omega) e),
        if_neg (fun h => e h.1)]
      simp
  | none =>
    rw [rowSum_nil, if_neg]
    rintro ⟨rfl, a, b⟩
    exact boundOn_none q hb r a b

theorem rowSum_bnd_con' (hinj : ∀ k, ∀ i < (q.st k).nb, ∀ j < (q.st k).nb, (q.st k).idxb i = (q.st k).idxb j → i = j)
    {k v k' r : Nat} (hr : r < (q.st k').nb + (q.st k').ng) :
    rowSum (bndE q k v) (c0 q k' + (q.st k').nb + (q.st k').ng + r)
      = if k = k' ∧ r < (q.st k').nb ∧ (q.st k').idxb r = v then 1 else 0 := by
  have hl : ∀ k, conLen q k = 2 * (q.st k).nb + 2 * (q.st k).ng := fun _ => rfl
  unfold bndE
  cases hb : boundOn q k v with
  | some ii =>
    have h := (boundOn_iff q (hinj k)).1 hb
    simp only [rowSum_cons, rowSum_nil, add_zero]
    by_cases e : k = k'
    · subst e
      rw [if_neg (by omega), zero_add]
      have : (c0 q k + (q.st k).nb + (q.st k).ng + ii = c0 q k + (q.st k).nb + (q.st k).ng + r)
          ↔ (k = k ∧ r < (q.st k).nb ∧ (q.st k).idxb r = v) := by
        constructor
        · intro e
          obtain rfl : ii = r := by omega
          exact ⟨rfl, h⟩
        · rintro ⟨_, a, b⟩
          rw [hinj k ii h.1 r a (h.2.trans b.symm)]
      simp only [this]
    · rw [if_neg (by simp only [Nat.add_assoc]; exact con_sep q (by rw [hl]; omega) _ (by rw [hl]; omega) e),
        if_neg (by simp only [Nat.add_assoc]; exact con_sep q (by rw [hl]; omega) _ (by rw [hl]; omega) e),
        if_neg (fun h => e h.1)]
      simp
  | none =>
    rw [rowSum_nil, if_neg]
    rintro ⟨rfl, a, b⟩
    exact boundOn_none q hb r a b

/-- coefficient of variable `v` in row `r` -/
def coef (s : Stage K) (v r : Nat) : K := if r < s.nb then (if s.idxb r = v then 1 else 0) else s.DCt v (r - s.nb)

theorem rowSum_var_low (hinj : ∀ k, ∀ i < (q.st k).nb, ∀ j < (q.st k).nb, (q.st k).idxb i = (q.st k).idxb j → i = j)
    {k v k' r : Nat} (hk : k ≤ q.N) (hr : r < (q.st k').nb + (q.st k').ng) :
    rowSum (varE q k v) (c0 q k' + r) = if k = k' then - coef (q.st k') v r else 0 := by
  have hl : ∀ k, conLen q k = 2 * (q.st k).nb + 2 * (q.st k).ng := fun _ => rfl
  have hd : rowSum (if k < q.N then (List.range (q.nx (k + 1))).map fun ii => (off (dynLen q) k + ii, (q.st k).BAbt v ii) else [])
      (c0 q k' + r) = 0 := by
    split
    · rename_i hN
      rw [rowSum_block, if_neg]
      rintro ⟨_, b⟩
      have := dyn_lt q (k := k) (j := c0 q k' + r - off (dynLen q) k) hN (by omega)
      unfold c0 at *; omega
    · rfl
  unfold varE
  rw [rowSum_append, rowSum_append, rowSum_append, hd, zero_add, rowSum_bnd_con q hinj hr]
  by_cases e : k = k'
  · subst e
    unfold coef
    by_cases hb : r < (q.st k).nb
    · rw [block_out (base := c0 q k + (q.st k).nb) (by omega),
        block_out (base := c0 q k + 2 * (q.st k).nb + (q.st k).ng) (by omega), if_pos (c := k = k) rfl, if_pos (c := r < (q.st k).nb) hb]
      by_cases hv : (q.st k).idxb r = v
      · rw [if_pos ⟨rfl, hb, hv⟩, if_pos hv]; simp
      · rw [if_neg (fun h => hv h.2.2), if_neg hv]; simp
    · rw [block_in (base := c0 q k + (q.st k).nb) (by omega),
        block_out (base := c0 q k + 2 * (q.st k).nb + (q.st k).ng) (by omega), if_neg (fun h => hb h.2.1),
        if_pos (c := k = k) rfl, if_neg (c := r < (q.st k).nb) hb]
      rw [show c0 q k + r - (c0 q k + (q.st k).nb) = r - (q.st k).nb by omega]
      simp
  · have out : ∀ base n, c0 q k ≤ base → base + n ≤ c0 q k + conLen q k →
        c0 q k' + r < base ∨ base + n ≤ c0 q k' + r := by
      intro base n h1 h2
      by_contra hc
      exact con_sep q (k := k) (k' := k') (a := r) (by rw [hl]; omega) (c0 q k' + r - c0 q k) (by omega) e (by omega)
    have h := hl k
    rw [if_neg (fun h => e h.1), if_neg e, block_out (out _ _ (by omega) (by omega)), block_out (out _ _ (by omega) (by omega)),
      add_zero, add_zero]

theorem rowSum_var_upp (hinj : ∀ k, ∀ i < (q.st k).nb, ∀ j < (q.st k).nb, (q.st k).idxb i = (q.st k).idxb j → i = j)
    {k v k' r : Nat} (hk : k ≤ q.N) (hr : r < (q.st k').nb + (q.st k').ng) :
    rowSum (varE q k v) (c0 q k' + (q.st k').nb + (q.st k').ng + r) = if k = k' then coef (q.st k') v r else 0 := by
  have hl : ∀ k, conLen q k = 2 * (q.st k).nb + 2 * (q.st k).ng := fun _ => rfl
  have hd : rowSum (if k < q.N then (List.range (q.nx (k + 1))).map fun ii => (off (dynLen q) k + ii, (q.st k).BAbt v ii) else [])
      (c0 q k' + (q.st k').nb + (q.st k').ng + r) = 0 := by
    split
    · rename_i hN
      rw [rowSum_block, if_neg]
      rintro ⟨_, b⟩
      have := dyn_lt q (k := k) (j := c0 q k' + (q.st k').nb + (q.st k').ng + r - off (dynLen q) k) hN (by omega)
      unfold c0 at *; omega
    · rfl
  unfold varE
  rw [rowSum_append, rowSum_append, rowSum_append, hd, zero_add, rowSum_bnd_con' q hinj hr]
  by_cases e : k = k'
  · subst e
    unfold coef
    by_cases hb : r < (q.st k).nb
    · rw [block_out (base := c0 q k + (q.st k).nb) (by omega),
        block_out (base := c0 q k + 2 * (q.st k).nb + (q.st k).ng) (by omega), if_pos (c := k = k) rfl, if_pos (c := r < (q.st k).nb) hb]
      by_cases hv : (q.st k).idxb r = v
      · rw [if_pos ⟨rfl, hb, hv⟩, if_pos hv]; simp
      · rw [if_neg (fun h => hv h.2.2), if_neg hv]; simp
    · rw [block_out (base := c0 q k + (q.st k).nb) (by omega),
        block_in (base := c0 q k + 2 * (q.st k).nb + (q.st k).ng) (by omega), if_neg (fun h => hb h.2.1),
        if_pos (c := k = k) rfl, if_neg (c := r < (q.st k).nb) hb]
      rw [show c0 q k + (q.st k).nb + (q.st k).ng + r - (c0 q k + 2 * (q.st k).nb + (q.st k).ng) = r - (q.st k).nb by omega]
      simp
  · have out : ∀ base n, c0 q k ≤ base → base + n ≤ c0 q k + conLen q k →
        c0 q k' + (q.st k').nb + (q.st k').ng + r < base ∨ base + n ≤ c0 q k' + (q.st k').nb + (q.st k').ng + r := by
      intro base n h1 h2
      by_contra hc
      exact con_sep q (k := k) (k' := k') (a := (q.st k').nb + (q.st k').ng + r) (by rw [hl]; omega)
        (c0 q k' + (q.st k').nb + (q.st k').ng + r - c0 q k) (by omega) e (by omega)
    have h := hl k
    rw [if_neg (fun h => e h.1), if_neg e, block_out (out _ _ (by omega) (by omega)), block_out (out _ _ (by omega) (by omega)),
      add_zero, add_zero]

/-- all entries of a column of `[u; x]` lie before the slack rows -/
theorem varE_lt {k v : Nat} (hk : k ≤ q.N) : ∀ e ∈ varE q k v, e.1 < slkStart q := by
  have hl : ∀ k, conLen q k = 2 * (q.st k).nb + 2 * (q.st k).ng := fun _ => rfl
  have h := con_lt q hk
  rw [hl] at h
  intro e he
  unfold varE bndE at he
  simp only [List.mem_append] at he
  rcases he with ((he | he) | he) | he
  · split at he
    · rename_i hN
      obtain ⟨ii, hii, rfl⟩ := List.mem_map.1 he
      have := dyn_lt q hN (List.mem_range.1 hii)
      unfold slkStart; dsimp only; omega
    · simp at he
  · cases hb : boundOn q k v with
    | none => rw [hb] at he; simp at he
    | some ii =>
      rw [hb] at he
      have := (boundOn_some q hb).1
      simp only [List.mem_cons, List.not_mem_nil, or_false] at he
      rcases he with rfl | rfl <;> dsimp only <;> omega
  · obtain ⟨ii, hii, rfl⟩ := List.mem_map.1 he
    have := List.mem_range.1 hii
    dsimp only; omega
  · obtain ⟨ii, hii, rfl⟩ := List.mem_map.1 he
    have := List.mem_range.1 hii
    dsimp only; omega

theorem eyeE_lt {k jj : Nat} (hk : k ≤ q.N) (hjj : jj < q.nx k) : ∀ e ∈ eyeE q k jj, e.1 < conStart q := by
  intro e he
  unfold eyeE at he
  split at he
  · rename_i h0
    simp only [List.mem_singleton] at he
    subst he
    dsimp only
    rw [eye_row q h0 hk]
    exact dyn_lt q (by omega) (by rwa [Nat.sub_add_cancel h0])
  · simp at he

theorem rowSum_zero {l : List (Nat × K)} {r : Nat} (h : ∀ e ∈ l, e.1 ≠ r) : rowSum l r = 0 := by
  induction l with
  | nil => rfl
  | cons e l ih =>
    rw [rowSum_cons, if_neg (h e List.mem_cons_self), ih fun e' h' => h e' (List.mem_cons_of_mem _ h'), add_zero]

theorem rowSum_sl {k jj : Nat} (hk : k ≤ q.N) (hjj : jj < (q.st k).ns) (r : Nat) :
    rowSum (slE q k jj) r
      = (if c0 q k ≤ r ∧ r < c0 q k + ((q.st k).nb + (q.st k).ng) ∧ (q.st k).idxs (r - c0 q k) = (jj : Int) then -1 else 0) +
        (if r = s0 q k + jj then -1 else 0) := by
  unfold slE softRows
  rw [rowSum_append, rowSum_filter, rowSum_cons, rowSum_nil, add_zero]
  simp only [beq_iff_eq]
  congr 1
  simp only [eq_comm (a := s0 q k + jj)]

theorem rowSum_su {k jj : Nat} (hk : k ≤ q.N) (hjj : jj < (q.st k).ns) (r : Nat) :
    rowSum (suE q k jj) r
      = (if c0 q k + (q.st k).nb + (q.st k).ng ≤ r ∧ r < c0 q k + (q.st k).nb + (q.st k).ng + ((q.st k).nb + (q.st k).ng) ∧
          (q.st k).idxs (r - (c0 q k + (q.st k).nb + (q.st k).ng)) = (jj : Int) then -1 else 0) +
        (if r = s0 q k + (q.st k).ns + jj then -1 else 0) := by
  unfold suE softRows
  rw [rowSum_append, rowSum_filter, rowSum_cons, rowSum_nil, add_zero]
  simp only [beq_iff_eq]
  congr 1
  simp only [eq_comm (a := s0 q k + (q.st k).ns + jj)]

end rows

/-! ## the product with a vector, row by row -/

theorem mulVec_eq (q : Qp K) (v : Nat → K) (r : Nat) :
    (mat q (cR q) (cV q)).mulVec (numVars q) v r
      = ∑ k ∈ range (q.N + 1), ∑ i ∈ range (nv q k), rowSum (cE q k i) r * v (off (nv q) k + i) := by
  unfold Csc.mulVec numVars
  rw [sum_off]
  refine sum_congr rfl fun k hk => sum_congr rfl fun i hi => ?_
  have hk' := Finset.mem_range.1 hk
  show rowSum ((mat q (cR q) (cV q)).col _) _ * _ = _
  rw [mat_col q _ _ (fun k _ i _ => clen q k i) (by omega) (Finset.mem_range.1 hi), czip]

/-- split the variables of a stage into controls, states and slacks -/
theorem sum_pick (q : Qp K) (k r : Nat) (v : Nat → K) :
    ∑ i ∈ range (nv q k), rowSum (cE q k i) r * v i
      = (∑ i ∈ range (q.nu k + q.nx k), rowSum (varE q k i) r * v i) +
        (∑ j ∈ range (q.nx k), rowSum (eyeE q k j) r * v (q.nu k + j)) +
        (∑ j ∈ range (q.st k).ns, rowSum (slE q k j) r * v (q.nu k + q.nx k + j)) +
        ∑ j ∈ range (q.st k).ns, rowSum (suE q k j) r * v (q.nu k + q.nx k + (q.st k).ns + j) := by
  have hnv : nv q k = q.nu k + q.nx k + (q.st k).ns + (q.st k).ns := by unfold nv; omega
  rw [hnv, Finset.sum_range_add, Finset.sum_range_add, Finset.sum_range_add]
  have h1 : ∀ i ∈ range (q.nu k), rowSum (cE q k i) r * v i = rowSum (varE q k i) r * v i := by
    intro i hi
    have := Finset.mem_range.1 hi
    unfold cE pick
    rw [if_pos (by omega), if_pos (by omega), if_pos this]
  have h2 : ∀ j ∈ range (q.nx k), rowSum (cE q k (q.nu k + j)) r * v (q.nu k + j)
      = rowSum (varE q k (q.nu k + j)) r * v (q.nu k + j) + rowSum (eyeE q k j) r * v (q.nu k + j) := by
    intro i hi
    have := Finset.mem_range.1 hi
    unfold cE pick
    rw [if_pos (by omega), if_pos (by omega), if_neg (by omega), Nat.add_sub_cancel_left, rowSum_append, add_mul, add_comm]
  have h3 : ∀ j ∈ range (q.st k).ns, rowSum (cE q k (q.nu k + q.nx k + j)) r * v (q.nu k + q.nx k + j)
      = rowSum (slE q k j) r * v (q.nu k + q.nx k + j) := by
    intro i hi
    have := Finset.mem_range.1 hi
    unfold cE pick
    rw [if_pos (by omega), if_neg (by omega), Nat.add_sub_cancel_left]
  have h4 : ∀ j ∈ range (q.st k).ns, rowSum (cE q k (q.nu k + q.nx k + (q.st k).ns + j)) r * v (q.nu k + q.nx k + (q.st k).ns + j)
      = rowSum (suE q k j) r * v (q.nu k + q.nx k + (q.st k).ns + j) := by
    intro i hi
    have := Finset.mem_range.1 hi
    unfold cE pick
    rw [if_neg (by omega), Nat.add_sub_cancel_left]
  rw [sum_congr rfl h1, sum_congr rfl h2, sum_congr rfl h3, sum_congr rfl h4, sum_add_distrib, Finset.sum_range_add]
  ring

/-- no slack column enters the dynamics -/
theorem sl_dyn (q : Qp K) {k jj r : Nat} (hk : k ≤ q.N) (hjj : jj < (q.st k).ns) (hr : r < conStart q) :
    rowSum (slE q k jj) r = 0 ∧ rowSum (suE q k jj) r = 0 := by
  have h1 : conStart q ≤ c0 q k := Nat.le_add_right _ _
  have h2 : conStart q ≤ slkStart q := Nat.le_add_left _ _
  have h3 : slkStart q ≤ s0 q k := Nat.le_add_right _ _
  rw [rowSum_sl q hk hjj, rowSum_su q hk hjj]
  constructor
  · rw [if_neg (fun h => by omega), if_neg (by omega), add_zero]
  · rw [if_neg (fun h => by omega), if_neg (by omega), add_zero]

/-- row of the dynamics -/
theorem mulVec_dyn (q : Qp K) (v : Nat → K) {k j : Nat} (hk : k < q.N) (hj : j < q.nx (k + 1)) :
    (mat q (cR q) (cV q)).mulVec (numVars q) v (off (dynLen q) k + j)
      = (∑ i ∈ range (q.nu k + q.nx k), (q.st k).BAbt i j * v (off (nv q) k + i))
        - v (off (nv q) (k + 1) + (q.nu (k + 1) + j)) := by
  have hr := dyn_lt q hk hj
  rw [mulVec_eq]
  have key : ∀ k' ∈ range (q.N + 1),
      ∑ i ∈ range (nv q k'), rowSum (cE q k' i) (off (dynLen q) k + j) * v (off (nv q) k' + i)
        = (if k' = k then ∑ i ∈ range (q.nu k + q.nx k), (q.st k).BAbt i j * v (off (nv q) k + i) else 0) +
          (if k' = k + 1 then - v (off (nv q) (k + 1) + (q.nu (k + 1) + j)) else 0) := by
    intro k' hk'
    have hk'' : k' ≤ q.N := by have := Finset.mem_range.1 hk'; omega
    rw [sum_pick q k' _ fun i => v (off (nv q) k' + i)]
    have z1 : ∑ i ∈ range (q.st k').ns, rowSum (slE q k' i) (off (dynLen q) k + j) * v (off (nv q) k' + (q.nu k' + q.nx k' + i)) = 0 :=
      sum_eq_zero fun i hi => by rw [(sl_dyn q hk'' (Finset.mem_range.1 hi) hr).1, zero_mul]
    have z2 : ∑ i ∈ range (q.st k').ns, rowSum (suE q k' i) (off (dynLen q) k + j) *
        v (off (nv q) k' + (q.nu k' + q.nx k' + (q.st k').ns + i)) = 0 :=
      sum_eq_zero fun i hi => by rw [(sl_dyn q hk'' (Finset.mem_range.1 hi) hr).2, zero_mul]
    rw [z1, z2, add_zero, add_zero]
    congr 1
    · by_cases e : k' = k
      · subst e
        rw [if_pos rfl]
        exact sum_congr rfl fun i _ => by rw [rowSum_var_dyn q hk'' hk hj, if_pos rfl]
      · rw [if_neg e]
        refine sum_eq_zero fun i _ => ?_
        rw [rowSum_var_dyn q hk'' hk hj, if_neg e, zero_mul]
    · by_cases e : k' = k + 1
      · subst e
        rw [if_pos rfl, sum_congr rfl fun i hi => by
          rw [rowSum_eye_dyn q hk'' (Finset.mem_range.1 hi) hk hj]]
        simp only [true_and, ite_mul, neg_mul, one_mul, zero_mul]
        rw [sum_ite_eq', if_pos (Finset.mem_range.2 hj)]
      · rw [if_neg e]
        refine sum_eq_zero fun i hi => ?_
        rw [rowSum_eye_dyn q hk'' (Finset.mem_range.1 hi) hk hj, if_neg (fun h => e h.1), zero_mul]
  rw [sum_congr rfl key, sum_add_distrib, sum_ite_eq', sum_ite_eq', if_pos (Finset.mem_range.2 (by omega)),
    if_pos (Finset.mem_range.2 (by omega))]
  ring

/-- the stage part of a vector of all variables -/
def part (q : Qp K) (v : Nat → K) (k : Nat) : Nat → K := fun i => v (off (nv q) k + i)

theorem coef_lhs (q : Qp K) (wf : WF q) (k : Nat) (u : Nat → K) {r : Nat} (hr : r < (q.st k).m) :
    ∑ i ∈ range (q.nu k + q.nx k), coef (q.st k) i r * u i = (q.st k).lhs u r := by
  unfold coef Stage.lhs
  by_cases h : r < (q.st k).nb
  · simp only [if_pos h, ite_mul, one_mul, zero_mul]
    rw [sum_ite_eq, if_pos (Finset.mem_range.2 (by rw [← wf.nux]; exact wf.idxb k r h))]
  · simp only [if_neg h]; rw [wf.nux]

theorem soft_sum (q : Qp K) (wf : WF q) (k : Nat) {r : Nat} (hr : r < (q.st k).m) (u : Nat → K) :
    ∑ j ∈ range (q.st k).ns, (if (q.st k).idxs r = (j : Int) then u j else 0)
      = if 0 ≤ (q.st k).idxs r then u ((q.st k).idxs r).toNat else 0 := by
  rcases wf.idxs k r hr with e | ⟨s, hs, e⟩
  · rw [if_neg (by omega)]
    exact sum_eq_zero fun j _ => by rw [if_neg (by omega)]
  · rw [if_pos (by omega), e]
    simp only [Nat.cast_inj, Int.toNat_natCast]
    rw [sum_ite_eq, if_pos (Finset.mem_range.2 hs)]

/-- row of the lower side of a constraint -/
theorem mulVec_low (q : Qp K) (wf : WF q)
    (hinj : ∀ k, ∀ i < (q.st k).nb, ∀ j < (q.st k).nb, (q.st k).idxb i = (q.st k).idxb j → i = j)
    (v : Nat → K) {k r : Nat} (hk : k ≤ q.N) (hr : r < (q.st k).m) :
    (mat q (cR q) (cV q)).mulVec (numVars q) v (c0 q k + r)
      = - ((q.st k).lhs (part q v k) r + (q.st k).sl (part q v k) r) := by
  have hl : ∀ k, conLen q k = 2 * (q.st k).nb + 2 * (q.st k).ng := fun _ => rfl
  have hr' : r < (q.st k).nb + (q.st k).ng := hr
  have hcl := con_lt q hk
  rw [hl] at hcl
  rw [mulVec_eq]
  have key : ∀ k' ∈ range (q.N + 1),
      ∑ i ∈ range (nv q k'), rowSum (cE q k' i) (c0 q k + r) * v (off (nv q) k' + i)
        = if k' = k then - ((q.st k).lhs (part q v k) r + (q.st k).sl (part q v k) r) else 0 := by
    intro k' hk'
    have hk'' : k' ≤ q.N := by have := Finset.mem_range.1 hk'; omega
    have hs0 : slkStart q ≤ s0 q k' := Nat.le_add_right _ _
    rw [sum_pick q k' _ fun i => v (off (nv q) k' + i)]
    have e2 : ∑ j ∈ range (q.nx k'), rowSum (eyeE q k' j) (c0 q k + r) * v (off (nv q) k' + (q.nu k' + j)) = 0 :=
      sum_eq_zero fun j hj => by
        rw [rowSum_eye_con q hk'' (Finset.mem_range.1 hj) (by unfold c0; omega), zero_mul]
    have e4 : ∑ j ∈ range (q.st k').ns, rowSum (suE q k' j) (c0 q k + r) *
        v (off (nv q) k' + (q.nu k' + q.nx k' + (q.st k').ns + j)) = 0 := by
      refine sum_eq_zero fun j hj => ?_
      have hj' := Finset.mem_range.1 hj
      rw [rowSum_su q hk'' hj', if_neg, if_neg (by omega), add_zero, zero_mul]
      rintro ⟨a, b, _⟩
      by_cases e : k' = k
      · subst e; omega
      · exact con_sep q (k := k') (k' := k) (a := r) (by rw [hl]; omega) (c0 q k + r - c0 q k') (by rw [hl]; omega) e (by omega)
    rw [e2, e4, add_zero, add_zero]
    by_cases e : k' = k
    · subst e
      rw [if_pos rfl]
      have e1 : ∑ i ∈ range (q.nu k' + q.nx k'), rowSum (varE q k' i) (c0 q k' + r) * v (off (nv q) k' + i)
          = - (q.st k').lhs (part q v k') r := by
        rw [← coef_lhs q wf k' _ hr, ← sum_neg_distrib]
        exact sum_congr rfl fun i _ => by rw [rowSum_var_low q hinj hk hr', if_pos rfl, part]; ring
      have e3 : ∑ j ∈ range (q.st k').ns, rowSum (slE q k' j) (c0 q k' + r) * v (off (nv q) k' + (q.nu k' + q.nx k' + j))
          = - (q.st k').sl (part q v k') r := by
        unfold Stage.sl part
        rw [← soft_sum q wf k' hr (fun j => v (off (nv q) k' + ((q.st k').nux + j))), ← sum_neg_distrib]
        refine sum_congr rfl fun j hj => ?_
        rw [rowSum_sl q hk (Finset.mem_range.1 hj), if_neg (c := c0 q k' + r = _) (by omega), add_zero, wf.nux,
          Nat.add_sub_cancel_left]
        by_cases h : (q.st k').idxs r = (j : Int)
        · rw [if_pos ⟨by omega, by omega, h⟩, if_pos h]; ring
        · rw [if_neg (fun a => h a.2.2), if_neg h]; ring
      rw [e1, e3]; ring
    · rw [if_neg e]
      have e1 : ∑ i ∈ range (q.nu k' + q.nx k'), rowSum (varE q k' i) (c0 q k + r) * v (off (nv q) k' + i) = 0 :=
        sum_eq_zero fun i _ => by rw [rowSum_var_low q hinj hk'' hr', if_neg e, zero_mul]
      have e3 : ∑ j ∈ range (q.st k').ns, rowSum (slE q k' j) (c0 q k + r) * v (off (nv q) k' + (q.nu k' + q.nx k' + j)) = 0 := by
        refine sum_eq_zero fun j hj => ?_
        rw [rowSum_sl q hk'' (Finset.mem_range.1 hj), if_neg (c := c0 q k + r = _) (by omega), add_zero, if_neg, zero_mul]
        rintro ⟨a, b, _⟩
        exact con_sep q (k := k') (k' := k) (a := r) (by rw [hl]; omega) (c0 q k + r - c0 q k') (by rw [hl]; omega) e (by omega)
      rw [e1, e3, add_zero]
  rw [sum_congr rfl key, sum_ite_eq', if_pos (Finset.mem_range.2 (by omega))]

/-- row of the upper side of a constraint -/
theorem mulVec_upp (q : Qp K) (wf : WF q)
    (hinj : ∀ k, ∀ i < (q.st k).nb, ∀ j < (q.st k).nb, (q.st k).idxb i = (q.st k).idxb j → i = j)
    (v : Nat → K) {k r : Nat} (hk : k ≤ q.N) (hr : r < (q.st k).m) :
    (mat q (cR q) (cV q)).mulVec (numVars q) v (c0 q k + (q.st k).nb + (q.st k).ng + r)
      = (q.st k).lhs (part q v k) r - (q.st k).su (part q v k) r := by
  have hl : ∀ k, conLen q k = 2 * (q.st k).nb + 2 * (q.st k).ng := fun _ => rfl
  have hr' : r < (q.st k).nb + (q.st k).ng := hr
  have hcl := con_lt q hk
  rw [hl] at hcl
  rw [mulVec_eq]
  have key : ∀ k' ∈ range (q.N + 1),
      ∑ i ∈ range (nv q k'), rowSum (cE q k' i) (c0 q k + (q.st k).nb + (q.st k).ng + r) * v (off (nv q) k' + i)
        = if k' = k then (q.st k).lhs (part q v k) r - (q.st k).su (part q v k) r else 0 := by
    intro k' hk'
    have hk'' : k' ≤ q.N := by have := Finset.mem_range.1 hk'; omega
    have hs0 : slkStart q ≤ s0 q k' := Nat.le_add_right _ _
    rw [sum_pick q k' _ fun i => v (off (nv q) k' + i)]
    have e2 : ∑ j ∈ range (q.nx k'), rowSum (eyeE q k' j) (c0 q k + (q.st k).nb + (q.st k).ng + r) *
        v (off (nv q) k' + (q.nu k' + j)) = 0 :=
      sum_eq_zero fun j hj => by
        rw [rowSum_eye_con q hk'' (Finset.mem_range.1 hj) (by unfold c0; omega), zero_mul]
    have e3 : ∑ j ∈ range (q.st k').ns, rowSum (slE q k' j) (c0 q k + (q.st k).nb + (q.st k).ng + r) *
        v (off (nv q) k' + (q.nu k' + q.nx k' + j)) = 0 := by
      refine sum_eq_zero fun j hj => ?_
      have hj' := Finset.mem_range.1 hj
      rw [rowSum_sl q hk'' hj', if_neg, if_neg (by omega), add_zero, zero_mul]
      rintro ⟨a, b, _⟩
      by_cases e : k' = k
      · subst e; omega
      · exact con_sep q (k := k') (k' := k) (a := (q.st k).nb + (q.st k).ng + r) (by rw [hl]; omega)
          (c0 q k + (q.st k).nb + (q.st k).ng + r - c0 q k') (by rw [hl]; omega) e (by omega)
    rw [e2, e3, add_zero, add_zero]
    by_cases e : k' = k
    · subst e
      rw [if_pos rfl]
      have e1 : ∑ i ∈ range (q.nu k' + q.nx k'), rowSum (varE q k' i) (c0 q k' + (q.st k').nb + (q.st k').ng + r) *
          v (off (nv q) k' + i) = (q.st k').lhs (part q v k') r := by
        rw [← coef_lhs q wf k' _ hr]
        exact sum_congr rfl fun i _ => by rw [rowSum_var_upp q hinj hk hr', if_pos rfl, part]
      have e3 : ∑ j ∈ range (q.st k').ns, rowSum (suE q k' j) (c0 q k' + (q.st k').nb + (q.st k').ng + r) *
          v (off (nv q) k' + (q.nu k' + q.nx k' + (q.st k').ns + j)) = - (q.st k').su (part q v k') r := by
        unfold Stage.su part
        rw [← soft_sum q wf k' hr (fun j => v (off (nv q) k' + ((q.st k').nux + (q.st k').ns + j))), ← sum_neg_distrib]
        refine sum_congr rfl fun j hj => ?_
        rw [rowSum_su q hk (Finset.mem_range.1 hj),
          if_neg (c := c0 q k' + (q.st k').nb + (q.st k').ng + r = _) (by omega), add_zero, wf.nux, Nat.add_sub_cancel_left]
        by_cases h : (q.st k').idxs r = (j : Int)
        · rw [if_pos ⟨by omega, by omega, h⟩, if_pos h]; ring
        · rw [if_neg (fun a => h a.2.2), if_neg h]; ring
      rw [e1, e3]; ring
    · rw [if_neg e]
      have e1 : ∑ i ∈ range (q.nu k' + q.nx k'), rowSum (varE q k' i) (c0 q k + (q.st k).nb + (q.st k).ng + r) *
          v (off (nv q) k' + i) = 0 :=
        sum_eq_zero fun i _ => by rw [rowSum_var_upp q hinj hk'' hr', if_neg e, zero_mul]
      have e3 : ∑ j ∈ range (q.st k').ns, rowSum (suE q k' j) (c0 q k + (q.st k).nb + (q.st k).ng + r) *
          v (off (nv q) k' + (q.nu k' + q.nx k' + (q.st k').ns + j)) = 0 := by
        refine sum_eq_zero fun j hj => ?_
        rw [rowSum_su q hk'' (Finset.mem_range.1 hj),
          if_neg (c := c0 q k + (q.st k).nb + (q.st k).ng + r = _) (by omega), add_zero, if_neg, zero_mul]
        rintro ⟨a, b, _⟩
        exact con_sep q (k := k') (k' := k) (a := (q.st k).nb + (q.st k).ng + r) (by rw [hl]; omega)
          (c0 q k + (q.st k).nb + (q.st k).ng + r - c0 q k') (by rw [hl]; omega) e (by omega)
      rw [e1, e3, add_zero]
  rw [sum_congr rfl key, sum_ite_eq', if_pos (Finset.mem_range.2 (by omega))]

/-- row of a bound on a slack -/
theorem mulVec_slk (q : Qp K) (wf : WF q) (v : Nat → K) {k s : Nat} (hk : k ≤ q.N) (hs : s < 2 * (q.st k).ns) :
    (mat q (cR q) (cV q)).mulVec (numVars q) v (s0 q k + s) = - part q v k ((q.st k).nux + s) := by
  have hl : ∀ k, conLen q k = 2 * (q.st k).nb + 2 * (q.st k).ng := fun _ => rfl
  have hsl : slkStart q ≤ s0 q k := Nat.le_add_right _ _
  rw [mulVec_eq]
  have key : ∀ k' ∈ range (q.N + 1),
      ∑ i ∈ range (nv q k'), rowSum (cE q k' i) (s0 q k + s) * v (off (nv q) k' + i)
        = if k' = k then - part q v k ((q.st k).nux + s) else 0 := by
    intro k' hk'
    have hk'' : k' ≤ q.N := by have := Finset.mem_range.1 hk'; omega
    have hcl := con_lt q hk''
    rw [hl] at hcl
    rw [sum_pick q k' _ fun i => v (off (nv q) k' + i)]
    have e1 : ∑ i ∈ range (q.nu k' + q.nx k'), rowSum (varE q k' i) (s0 q k + s) * v (off (nv q) k' + i) = 0 :=
      sum_eq_zero fun i _ => by
        rw [rowSum_zero fun e he => by have := varE_lt q hk'' e he; omega, zero_mul]
    have e2 : ∑ j ∈ range (q.nx k'), rowSum (eyeE q k' j) (s0 q k + s) * v (off (nv q) k' + (q.nu k' + j)) = 0 :=
      sum_eq_zero fun j hj => by
        rw [rowSum_eye_con q hk'' (Finset.mem_range.1 hj) (by unfold slkStart at hsl; omega), zero_mul]
    rw [e1, e2, zero_add, zero_add]
    by_cases e : k' = k
    · subst e
      rw [if_pos rfl]
      have e3 : ∑ j ∈ range (q.st k').ns, rowSum (slE q k' j) (s0 q k' + s) * v (off (nv q) k' + (q.nu k' + q.nx k' + j))
          = ∑ j ∈ range (q.st k').ns, if s = j then - part q v k' ((q.st k').nux + s) else 0 := by
        refine sum_congr rfl fun j hj => ?_
        rw [rowSum_sl q hk (Finset.mem_range.1 hj), if_neg (fun h => by omega), zero_add]
        by_cases h : s = j
        · subst h; rw [if_pos rfl, if_pos rfl, part, wf.nux]; ring
        · rw [if_neg (by omega), if_neg h, zero_mul]
      have e4 : ∑ j ∈ range (q.st k').ns, rowSum (suE q k' j) (s0 q k' + s) *
          v (off (nv q) k' + (q.nu k' + q.nx k' + (q.st k').ns + j))
          = ∑ j ∈ range (q.st k').ns, if s - (q.st k').ns = j then
              (if (q.st k').ns ≤ s then - part q v k' ((q.st k').nux + s) else 0) else 0 := by
        refine sum_congr rfl fun j hj => ?_
        have hj' := Finset.mem_range.1 hj
        rw [rowSum_su q hk hj', if_neg (fun h => by omega), zero_add]
        by_cases h : s - (q.st k').ns = j
        · rw [if_pos h]
          by_cases h' : (q.st k').ns ≤ s
          · rw [if_pos h', if_pos (by omega), part, wf.nux,
              show q.nu k' + q.nx k' + (q.st k').ns + j = q.nu k' + q.nx k' + s by omega]
            ring
          · rw [if_neg h', if_neg (by omega), zero_mul]
        · rw [if_neg h, if_neg (by omega), zero_mul]
      rw [e3, e4, sum_ite_eq, sum_ite_eq]
      by_cases h : s < (q.st k').ns
      · rw [if_pos (Finset.mem_range.2 h)]
        rw [if_neg (c := (q.st k').ns ≤ s) (by omega), ite_self, add_zero]
      · rw [if_neg (fun a => h (Finset.mem_range.1 a)), if_pos (Finset.mem_range.2 (by omega)), if_pos (by omega), zero_add]
    · rw [if_neg e]
      have hne : ∀ b < slkLen q k', s0 q k + s ≠ s0 q k' + b := by
        intro b hb h
        unfold s0 at h
        exact e (off_inj (slkLen q) (i := b) (i' := s) hb hs (by omega)).1
      have hl' : slkLen q k' = 2 * (q.st k').ns := rfl
      have e3 : ∑ j ∈ range (q.st k').ns, rowSum (slE q k' j) (s0 q k + s) * v (off (nv q) k' + (q.nu k' + q.nx k' + j)) = 0 := by
        refine sum_eq_zero fun j hj => ?_
        have hj' := Finset.mem_range.1 hj
        rw [rowSum_sl q hk'' hj', if_neg (fun h => by omega), if_neg (hne j (by omega)), add_zero, zero_mul]
      have e4 : ∑ j ∈ range (q.st k').ns, rowSum (suE q k' j) (s0 q k + s) *
          v (off (nv q) k' + (q.nu k' + q.nx k' + (q.st k').ns + j)) = 0 := by
        refine sum_eq_zero fun j hj => ?_
        have hj' := Finset.mem_range.1 hj
        rw [rowSum_su q hk'' hj', if_neg (fun h => by omega), if_neg (by rw [Nat.add_assoc]; exact hne _ (by omega)), add_zero,
          zero_mul]
      rw [e3, e4, add_zero]
  rw [sum_congr rfl key, sum_ite_eq', if_pos (Finset.mem_range.2 (by omega))]

end Acados.SparseQp.Clarabel
