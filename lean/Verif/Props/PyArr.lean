import Mathlib.Tactic.Ring
import Mathlib.Data.List.Nodup
import Mathlib.Algebra.Order.Field.Rat
import Verif.Model.PyArr
import Verif.Lemmas.Params

/-!
# C103: arrays arrive in C as they are in Python

Whatever the strides of an array, C gets its elements: vectors in their order, matrices column by column.
-/

namespace Acados.PyArr

variable {K : Type}

theorem idx_lt {r c i j : Nat} (hi : i < r) (hj : j < c) : i + r * j < r * c := by
  calc i + r * j < r + r * j := by omega
    _ = r * (j + 1) := by ring
    _ ≤ r * c := Nat.mul_le_mul_left _ hj

theorem idx_mod {r i : Nat} (j : Nat) (hi : i < r) : (i + r * j) % r = i := by
  rw [Nat.add_mul_mod_self_left, Nat.mod_eq_of_lt hi]

theorem idx_div {r i : Nat} (j : Nat) (hi : i < r) : (i + r * j) / r = j := by
  rw [Nat.add_mul_div_left _ _ (by omega), Nat.div_eq_of_lt hi, Nat.zero_add]

theorem holds_col (a : Nd2 K) : HoldsMat (colMajor a) a.r a.c a.get := by
  intro i hi j hj
  unfold Buf.at?
  rw [if_pos (show i + a.r * j < (colMajor a).len from idx_lt hi hj)]
  change some (a.get ((i + a.r * j) % a.r) ((i + a.r * j) / a.r)) = _
  rw [idx_mod j hi, idx_div j hi]

theorem holds_vec (a : Nd1 K) : HoldsVec (copy1 a) a.n a.get := by
  intro i hi
  unfold Buf.at?
  rw [if_pos (show i < (copy1 a).len from hi)]
  rfl

/-- a single row or column lies in memory the same way in both orders -/
theorem row_eq_col {a : Nd2 K} (h : a.r ≤ 1 ∨ a.c ≤ 1) {k : Nat} (hk : k < a.r * a.c) :
    (rowMajor a).val k = (colMajor a).val k := by
  change a.get (k / a.c) (k % a.c) = a.get (k % a.r) (k / a.r)
  rcases h with h | h
  · have : a.r = 1 := by
      rcases Nat.lt_or_ge 0 a.r with h0 | h0
      · omega
      · have : a.r = 0 := by omega
        rw [this, Nat.zero_mul] at hk
        omega
    rw [this, Nat.one_mul] at hk
    rw [this, Nat.mod_one, Nat.div_one, Nat.div_eq_of_lt hk, Nat.mod_eq_of_lt hk]
  · have : a.c = 1 := by
      rcases Nat.lt_or_ge 0 a.c with h0 | h0
      · omega
      · have : a.c = 0 := by omega
        rw [this, Nat.mul_zero] at hk
        omega
    rw [this, Nat.mul_one] at hk
    rw [this, Nat.mod_one, Nat.div_one, Nat.div_eq_of_lt hk, Nat.mod_eq_of_lt hk]

theorem copy2_len (a : Nd2 K) : (copy2 a).len = a.r * a.c := by
  unfold copy2
  split <;> rfl

/-- the copy of a matrix with the smaller stride in the rows, and of a single row or column, is column by column -/
theorem holds_copy {a : Nd2 K} (h : a.sr.natAbs < a.sc.natAbs ∨ a.r ≤ 1 ∨ a.c ≤ 1) :
    HoldsMat (copy2 a) a.r a.c a.get := by
  by_cases hs : a.sr.natAbs < a.sc.natAbs
  · unfold copy2
    rw [if_pos hs]
    exact holds_col a
  · intro i hi j hj
    have hk := idx_lt hi hj
    rw [← holds_col a i hi j hj]
    unfold copy2 Buf.at?
    rw [if_neg hs, if_pos (show i + a.r * j < (rowMajor a).len from hk), if_pos (show i + a.r * j < (colMajor a).len from hk),
      row_eq_col (h.resolve_left hs) hk]

variable [DecidableEq K] {N stage : Int}

theorem modelSet_mat {f : Fld} {api : Api} {a : Nd2 K} {b : Buf K}
    (h : modelSet N stage (some f) api (some (.mat a)) = .ok b) :
    (a.r, a.c) = f.dims ∧ (api = .old ∧ b = copy2 a ∨ (api = .warn ∧ sameOrder a = true ∨ api = .new) ∧ b = colMajor a) := by
  unfold modelSet at h
  split at h
  · cases h
  · cases api with
    | old =>
      by_cases hd : (a.r, a.c) = f.dims
      · simp only [bind, Except.bind, if_pos hd] at h
        cases h
        exact ⟨hd, .inl ⟨rfl, rfl⟩⟩
      · simp only [bind, Except.bind, if_neg hd] at h
        cases h
    | warn =>
      by_cases hs : sameOrder a = true
      · by_cases hd : (a.r, a.c) = f.dims
        · simp only [bind, Except.bind, if_pos hs, if_pos hd] at h
          cases h
          exact ⟨hd, .inr ⟨.inl ⟨rfl, hs⟩, rfl⟩⟩
        · simp only [bind, Except.bind, if_pos hs, if_neg hd] at h
          cases h
      · simp only [bind, Except.bind, if_neg hs] at h
        cases h
    | new =>
      by_cases hd : (a.r, a.c) = f.dims
      · simp only [bind, Except.bind, if_pos hd] at h
        cases h
        exact ⟨hd, .inr ⟨.inr rfl, rfl⟩⟩
      · simp only [bind, Except.bind, if_neg hd] at h
        cases h
    | unknown => simp only [bind, Except.bind] at h; cases h

/-- **C103** with `api='new'`, `cost_set` and `constraints_set` of a matrix of the dimensions of the field succeed, and C
gets the matrix, whatever the strides -/
theorem C103_matrix (hs : 0 ≤ stage ∧ stage ≤ N) (a : Nd2 K) :
    ∃ b, modelSet N stage (some (.mat a.r a.c)) .new (some (.mat a)) = .ok b ∧ HoldsMat b a.r a.c a.get := by
  refine ⟨colMajor a, ?_, holds_col a⟩
  unfold modelSet
  rw [if_neg (by omega)]
  simp only [bind, Except.bind]
  exact if_pos rfl

/-- **C103** also with `api='warn'`, the default: if the call succeeds, C gets the matrix -/
theorem C103_warn {r c : Nat} {a : Nd2 K} {b : Buf K} {api : Api} (hapi : api ≠ .old)
    (h : modelSet N stage (some (.mat r c)) api (some (.mat a)) = .ok b) :
    a.r = r ∧ a.c = c ∧ HoldsMat b r c a.get := by
  obtain ⟨hd, ⟨h1, -⟩ | ⟨-, rfl⟩⟩ := modelSet_mat h
  · exact absurd h1 hapi
  · simp only [Fld.dims, Prod.mk.injEq] at hd
    obtain ⟨rfl, rfl⟩ := hd
    exact ⟨rfl, rfl, holds_col a⟩

/-- **C103** with the default the call succeeds exactly if the elements column by column are those in memory; in particular
for matrices with the smaller stride in the rows (Fortran order) and for single rows and columns -/
theorem C103_warn_accepts (hs : 0 ≤ stage ∧ stage ≤ N) (a : Nd2 K) :
    ((∃ b, modelSet N stage (some (.mat a.r a.c)) .warn (some (.mat a)) = .ok b) ↔
      ∀ i < a.r, ∀ j < a.c, (copy2 a).at? (i + a.r * j) = some (a.get i j)) ∧
    (a.sr.natAbs < a.sc.natAbs ∨ a.r ≤ 1 ∨ a.c ≤ 1 →
      ∃ b, modelSet N stage (some (.mat a.r a.c)) .warn (some (.mat a)) = .ok b) := by
  have key : (∃ b, modelSet N stage (some (.mat a.r a.c)) .warn (some (.mat a)) = .ok b) ↔
      ∀ i < a.r, ∀ j < a.c, (copy2 a).at? (i + a.r * j) = some (a.get i j) := by
    constructor
    · rintro ⟨b, h⟩ i hi j hj
      obtain ⟨-, ⟨h1, -⟩ | ⟨⟨-, h1⟩ | h1, -⟩⟩ := modelSet_mat h
      · cases h1
      · unfold sameOrder at h1
        rw [List.all_eq_true] at h1
        have hk := idx_lt hi hj
        have := of_decide_eq_true (h1 _ (List.mem_range.mpr hk))
        rw [← holds_col a i hi j hj]
        unfold Buf.at?
        rw [copy2_len, if_pos hk, if_pos (show i + a.r * j < (colMajor a).len from hk), this]
      · cases h1
    · intro h
      refine ⟨colMajor a, ?_⟩
      have hso : sameOrder a = true := by
        unfold sameOrder
        rw [List.all_eq_true]
        intro k hk
        rw [List.mem_range] at hk
        refine decide_eq_true ?_
        have hr : 0 < a.r := Nat.pos_of_ne_zero (fun e => by rw [e, Nat.zero_mul] at hk; omega)
        have hi := Nat.mod_lt k hr
        have hj : k / a.r < a.c := Nat.div_lt_of_lt_mul hk
        have e : k % a.r + a.r * (k / a.r) = k := Nat.mod_add_div k a.r
        have h1 := h _ hi _ hj
        have h2 := holds_col a _ hi _ hj
        rw [e] at h1 h2
        unfold Buf.at? at h1 h2
        rw [copy2_len, if_pos hk] at h1
        rw [if_pos (show k < (colMajor a).len from hk)] at h2
        injection h1 with h1
        injection h2 with h2
        rw [h1, h2]
      unfold modelSet
      rw [if_neg (by omega)]
      simp only [bind, Except.bind, if_pos hso]
      exact if_pos rfl
  exact ⟨key, fun h => key.mpr (holds_copy h)⟩

/-- **C103** vectors: the call succeeds if the length is that of the field, and C gets the elements -/
theorem C103_vector (hs : 0 ≤ stage ∧ stage ≤ N) (a : Nd1 K) (api : Api) :
    ∃ b, modelSet N stage (some (.vec a.n)) api (some (.vec a)) = .ok b ∧ HoldsVec b a.n a.get := by
  refine ⟨copy1 a, ?_, holds_vec a⟩
  unfold modelSet
  rw [if_neg (by omega)]
  exact if_pos rfl

/-- **C103** other shapes and stages are refused: whatever is accepted has the shape of the field -/
theorem C103_refuse {f : Fld} {api : Api} {v : Option (Val K)} {b : Buf K} (h : modelSet N stage (some f) api v = .ok b) :
    (0 ≤ stage ∧ stage ≤ N) ∧
    ((∃ x, v = some (.num x) ∧ f.dims = (1, 0)) ∨ (∃ a, v = some (.vec a) ∧ f.dims = (a.n, 0)) ∨
      ∃ a, v = some (.mat a) ∧ f.dims = (a.r, a.c)) := by
  refine ⟨?_, ?_⟩
  · unfold modelSet at h
    split at h
    · cases h
    · omega
  · cases v with
    | none =>
      unfold modelSet at h
      split at h <;> cases h
    | some v =>
      cases v with
      | num x =>
        unfold modelSet at h
        split at h
        · cases h
        · simp only at h
          split at h
          · next e => exact .inl ⟨x, rfl, e.symm⟩
          · cases h
      | vec a =>
        unfold modelSet at h
        split at h
        · cases h
        · simp only at h
          split at h
          · next e => exact .inr (.inl ⟨a, rfl, e.symm⟩)
          · cases h
      | mat a => exact .inr (.inr ⟨a, rfl, (modelSet_mat h).1.symm⟩)

/-- **C103** C does not read beyond the buffer, unless a matrix without columns is passed for a vector.

Partial: such matrices are accepted, `C103_empty_counterexample`. -/
theorem C103_inbounds_partial {f : Fld} {api : Api} {v : Option (Val K)} {b : Buf K}
    (h : modelSet N stage (some f) api v = .ok b) (hv : ∀ a, v = some (.mat a) → a.c = 0 → f = .mat a.r a.c) :
    f.count ≤ b.len := by
  obtain ⟨hst, ⟨x, rfl, hd⟩ | ⟨a, rfl, hd⟩ | ⟨a, rfl, hd⟩⟩ := C103_refuse h
  · unfold modelSet at h
    rw [if_neg (by omega)] at h
    simp only [hd, if_true] at h
    cases h
    cases f with
    | vec n => cases hd; exact le_refl _
    | mat r c => cases hd; exact Nat.zero_le _
  · unfold modelSet at h
    rw [if_neg (by omega)] at h
    simp only [hd, if_true] at h
    cases h
    cases f with
    | vec n => cases hd; exact le_refl _
    | mat r c => cases hd; exact Nat.zero_le _
  · have hlen : b.len = a.r * a.c := by
      obtain ⟨-, ⟨-, rfl⟩ | ⟨-, rfl⟩⟩ := modelSet_mat h
      · exact copy2_len a
      · rfl
    cases f with
    | vec n =>
      simp only [Fld.dims, Prod.mk.injEq] at hd
      exact absurd (hv a rfl hd.2.symm) (by rintro ⟨⟩)
    | mat r c =>
      cases hd
      rw [hlen]
      exact le_refl _

omit [DecidableEq K] in
/-- **C103** a matrix that C holds is read back as it is, and one that has been set is read back as it was -/
theorem C103_roundtrip {a : Nd2 K} {b : Buf K} {held : Nat → Nat → K} (hb : HoldsMat b a.r a.c a.get)
    (hc : ∀ i < a.r, ∀ j < a.c, b.at? (i + a.r * j) = some (held i j)) :
    ∀ i < a.r, ∀ j < a.c, (modelGet a.r a.c held).get i j = a.get i j := by
  intro i hi j hj
  have h1 := hb i hi j hj
  rw [hc i hi j hj] at h1
  injection h1 with h1
  rw [← h1]
  unfold modelGet Nd2.get
  simp only
  have : ((0 : Int) + 1 * (i : Int) + (a.r : Int) * (j : Int)).toNat = i + a.r * j := by
    have : (0 : Int) + 1 * (i : Int) + (a.r : Int) * (j : Int) = ((i + a.r * j : Nat) : Int) := by push_cast; ring
    rw [this, Int.toNat_natCast]
  rw [this, idx_mod j hi, idx_div j hi]

omit [DecidableEq K] in
/-- **C103** `set`: vectors, single columns and numbers arrive as they are; a length that is not that of the field is refused.

Partial: matrices with other numbers of columns are accepted, `C103_set_counterexample`. -/
theorem C103_set_partial {dim : Nat} {v : Val K} {b : Buf K} (h : fieldSet N stage dim v = .ok b) :
    match v with
    | .num x => dim = 1 ∧ HoldsVec b 1 (fun _ => x)
    | .vec a => dim = a.n ∧ HoldsVec b a.n a.get
    | .mat a => dim = a.r ∧ (a.c = 1 → HoldsVec b a.r (fun i => a.get i 0)) := by
  unfold fieldSet at h
  split at h
  · cases h
  · cases v with
    | num x =>
      simp only at h
      split at h
      · next e =>
        cases h
        refine ⟨e.symm, fun i hi => ?_⟩
        unfold Buf.at?
        rw [if_pos (show i < 1 from hi)]
      · cases h
    | vec a =>
      simp only at h
      split at h
      · next e => cases h; exact ⟨e.symm, holds_vec a⟩
      · cases h
    | mat a =>
      simp only at h
      split at h
      · next e =>
        cases h
        refine ⟨e.symm, fun hc i hi => ?_⟩
        have := holds_copy (a := a) (.inr (.inr (le_of_eq hc))) i hi 0 (by omega)
        rwa [Nat.mul_zero, Nat.add_zero] at this
      · cases h

omit [DecidableEq K] in
/-- **C103** integrators: vectors and numbers arrive as they are, also matrices in Fortran order and single rows or columns,
column by column.

Partial: other matrices are read after they have been freed, `C103_sim_counterexample`. -/
theorem C103_sim_partial {dim : Nat} {v : Val K} {b : Buf K} (h : simSet dim v = .ok b) :
    match v with
    | .num x => dim = 1 ∧ HoldsVec b 1 (fun _ => x)
    | .vec a => dim = a.n ∧ HoldsVec b a.n a.get
    | .mat a => dim = a.r * a.c ∧ HoldsMat b a.r a.c a.get := by
  unfold simSet at h
  cases v with
  | num x =>
    simp only at h
    split at h
    · next e =>
      cases h
      refine ⟨e.symm, fun i hi => ?_⟩
      unfold Buf.at?
      rw [if_pos (show i < 1 from hi)]
    · cases h
  | vec a =>
    simp only at h
    split at h
    · next e => cases h; exact ⟨e.symm, holds_vec a⟩
    · cases h
  | mat a =>
    simp only at h
    split at h
    · cases h
    · next e =>
      split at h
      · next hl =>
        cases h
        push Not at e
        exact ⟨e.symm, holds_copy hl⟩
      · cases h

omit [DecidableEq K] in
/-- **C103** the integrator accepts every vector of the right length -/
theorem C103_sim_vector (a : Nd1 K) : ∃ b, simSet a.n (.vec a) = .ok b := ⟨copy1 a, if_pos rfl⟩

theorem wrap_id {n : Int} (h1 : -2147483648 ≤ n) (h2 : n < 2147483648) : wrap n = n := by
  unfold wrap
  omega

omit [DecidableEq K] in
theorem fold_map_spec (B : Int) (I : Nat → Int) (V : Nat → K) (n : Nat) (hI : ∀ k < n, ∀ l < n, I k = I l → k = l)
    (h : Int → K) :
    (∀ k < n, ((List.range n).map fun k => (I k, V k)).foldl (fun h u => Function.update h (B + u.1) u.2) h (B + I k) = V k) ∧
    (∀ x, (∀ k < n, x ≠ B + I k) →
      ((List.range n).map fun k => (I k, V k)).foldl (fun h u => Function.update h (B + u.1) u.2) h x = h x) := by
  induction n with
  | zero => exact ⟨fun k hk => absurd hk (by omega), fun _ _ => rfl⟩
  | succ n ih =>
    obtain ⟨h1, h2⟩ := ih (fun k hk l hl => hI k (by omega) l (by omega))
    rw [List.range_succ, List.map_append, List.foldl_append]
    simp only [List.map_cons, List.map_nil, List.foldl_cons, List.foldl_nil]
    refine ⟨fun k hk => ?_, fun x hx => ?_⟩
    · by_cases e : k = n
      · subst e
        rw [Function.update_self]
      · have hne : B + I k ≠ B + I n := by
          intro e'
          exact e (hI k hk n (by omega) (by omega))
        rw [Function.update_of_ne hne]
        exact h1 k (by omega)
    · rw [Function.update_of_ne (hx n (by omega))]
      exact h2 x (fun k hk => hx k (by omega))

omit [DecidableEq K] in
/-- **C103** `set_params_sparse` with consecutive values and different non-negative indices: the parameters with these
indices at this stage get the values, all others at all stages stay.

Partial: the values are not copied and negative indices are not refused, `C103_sparse_counterexample`. -/
theorem C103_sparse_partial {np : Nat → Nat} {st : Nat} {idx : List Int} {v : Nd1 K} {h h' : Int → K}
    (hnp : np st ≤ 2147483648) (hst : v.st = 1) (hpos : ∀ i ∈ idx, 0 ≤ i) (hnd : idx.Nodup)
    (hs : setSparse np N st idx v h = .ok h') :
    v.n = idx.length ∧ (∀ i ∈ idx, i < np st) ∧
    (∀ k (hk : k < idx.length), h' (Params.base np st + idx[k]) = v.get k) ∧
    (∀ i < np st, (i : Int) ∉ idx → h' (Params.base np st + i) = h (Params.base np st + i)) ∧
    (∀ t ≠ st, ∀ i < np t, h' (Params.base np t + i) = h (Params.base np t + i)) := by
  unfold setSparse sparseUpdates at hs
  split at hs
  · cases hs
  · split at hs
    · cases hs
    · next hn =>
      split at hs
      · cases hs
      · next ha =>
        push Not at hn
        have hlt : ∀ i ∈ idx, i < np st := by
          intro i hi
          by_contra hc
          exact ha (List.any_eq_true.mpr ⟨i, hi, decide_eq_true (by omega)⟩)
        change Except.ok _ = _ at hs
        injection hs with hs
        subst hs
        have hI : ∀ k (hk : k < v.n), wrap (idx.getD k 0) = idx[k]'(hn ▸ hk) := by
          intro k hk
          have hk' : k < idx.length := hn ▸ hk
          have hm := List.getElem_mem hk'
          have h1 := hpos _ hm
          have h2 := hlt _ hm
          rw [List.getD_eq_getElem?_getD, List.getElem?_eq_getElem hk', Option.getD_some, wrap_id (by omega) (by omega)]
        obtain ⟨h1, h2⟩ := fold_map_spec (Params.base np st) (fun k => wrap (idx.getD k 0)) (raw v) v.n
          (fun k hk l hl e => by
            rw [hI k hk, hI l hl] at e
            exact (List.Nodup.getElem_inj_iff hnd).mp e) h
        refine ⟨hn, hlt, fun k hk => ?_, fun i hi hni => ?_, fun t ht i hi => ?_⟩
        · have := h1 k (by omega)
          rw [hI k (by omega)] at this
          refine this.trans ?_
          unfold raw Nd1.get
          rw [hst, one_mul]
        · refine h2 _ (fun k hk e => hni ?_)
          rw [hI k hk] at e
          have : (i : Int) = idx[k]'(hn ▸ hk) := by omega
          rw [this]
          exact List.getElem_mem _
        · refine h2 _ (fun k hk e => ?_)
          rw [hI k hk] at e
          have hm := List.getElem_mem (hn ▸ hk : k < idx.length)
          obtain ⟨m, hm'⟩ := Int.eq_ofNat_of_zero_le (hpos _ hm)
          have h3 := hlt _ hm
          rw [hm'] at e h3
          exact Params.base_disjoint np ht hi (by omega) e

theorem inUse_step {s : Ts K} (hst : ∀ id, (s.objs id).st = 1) (h : InUse s.cN s.cTs (s.objs s.desc)) {op : Op K}
    (hc : ∀ id i x, op = .change id i x → id ≠ s.desc) :
    (∀ id, ((step s op).objs id).st = 1) ∧ InUse (step s op).cN (step s op).cTs ((step s op).objs (step s op).desc) := by
  cases op with
  | change id i x =>
    have hne := hc id i x rfl
    refine ⟨fun j => ?_, ?_⟩
    · change (Function.update s.objs id (change (s.objs id) i x) j).st = 1
      by_cases e : j = id
      · subst e
        rw [Function.update_self]
        exact hst j
      · rw [Function.update_of_ne e]
        exact hst j
    · unfold InUse step
      simp only
      rw [Function.update_of_ne (Ne.symm hne)]
      exact h
  | set id =>
    change (∀ j, ((setTs id s).objs j).st = 1) ∧ InUse (setTs id s).cN (setTs id s).cTs ((setTs id s).objs (setTs id s).desc)
    unfold setTs
    split
    · exact ⟨hst, h⟩
    · refine ⟨hst, rfl, fun k _ => ?_⟩
      change raw (s.objs id) k = _
      unfold raw Nd1.get
      rw [hst id, one_mul]

theorem setTs_inUse {s : Ts K} (hst : ∀ id, (s.objs id).st = 1) (h : InUse s.cN s.cTs (s.objs s.desc)) (id : Nat) :
    InUse (setTs id s).cN (setTs id s).cTs ((setTs id s).objs id) := by
  unfold setTs
  split
  · next e =>
    unfold arrayEqual at e
    rw [Bool.and_eq_true, List.all_eq_true] at e
    have e1 := of_decide_eq_true e.1
    refine ⟨h.1.trans e1, fun k hk => (h.2 k hk).trans ?_⟩
    exact of_decide_eq_true (e.2 k (List.mem_range.mpr (by rw [← h.1]; exact hk)))
  · refine ⟨rfl, fun k _ => ?_⟩
    change raw (s.objs id) k = _
    unfold raw Nd1.get
    rw [hst id, one_mul]

/-- **C103** `set_new_time_steps` after any history of calls and changes of arrays: the solver uses the steps of the array,
as long as arrays are consecutive in memory and the array of the last call is not changed by the program.

Partial: `C103_time_steps_counterexample`, `C103_time_steps_stride_counterexample`. -/
theorem C103_time_steps_partial {l : List (Op K)} {s : Ts K} (hst : ∀ id, (s.objs id).st = 1) (h : InUse s.cN s.cTs (s.objs s.desc))
    (hc : Careful s.desc l) (id : Nat) :
    let s' := run (l ++ [.set id]) s
    InUse s'.cN s'.cTs (s'.objs id) := by
  intro s'
  change InUse (run _ s).cN (run _ s).cTs ((run _ s).objs id)
  unfold run
  rw [List.foldl_append]
  change InUse (setTs id (l.foldl step s)).cN (setTs id (l.foldl step s)).cTs ((setTs id (l.foldl step s)).objs id)
  clear s'
  induction l generalizing s with
  | nil => exact setTs_inUse hst h id
  | cons op l ih =>
    obtain ⟨h1, h2⟩ := inUse_step hst h (op := op) (fun j i x e => (hc [] l j i x (by rw [e]; rfl)).1)
    refine ih h1 h2 (fun l1 l2 j i x e => ?_)
    obtain ⟨h3, h4⟩ := hc (op :: l1) l2 j i x (by rw [e]; rfl)
    refine ⟨?_, fun hm => h4 (List.mem_cons_of_mem _ hm)⟩
    cases op with
    | change => exact h3
    | set k =>
      change j ≠ (setTs k s).desc
      unfold setTs
      split
      · exact h3
      · exact fun e => h4 (by rw [e]; exact List.mem_cons_self)

omit [DecidableEq K] in
/-- **C103** matrices for a batch of solvers: with the dimensions of the field each solver gets its matrix.

Partial: only the number of entries is checked, `C103_batch_counterexample`. -/
theorem C103_batch_partial (a : Nd3 K) (hc : 0 < a.c) {b : Nat} (hb : b < a.n) :
    ∃ buf, batchSet (.mat a.r a.c) a b = .ok buf ∧ HoldsMat buf a.r a.c (a.get b) := by
  have hdim : (Fld.mat a.r a.c).dims.1 * (if (Fld.mat a.r a.c).dims.2 = 0 then 1 else (Fld.mat a.r a.c).dims.2) = a.r * a.c := by
    change a.r * (if a.c = 0 then 1 else a.c) = _
    rw [if_neg (by omega)]
  unfold batchSet
  simp only [hdim]
  rw [if_neg (by rw [Nat.mul_comm a.c a.r]; simp)]
  refine ⟨_, rfl, fun i hi j hj => ?_⟩
  have hk := idx_lt hi hj
  have hlen : i + a.r * j < a.n * (a.c * a.r) - b * (a.r * a.c) := by
    rw [Nat.mul_comm a.c a.r]
    have : (b + 1) * (a.r * a.c) ≤ a.n * (a.r * a.c) := Nat.mul_le_mul_right _ hb
    rw [Nat.add_mul, Nat.one_mul] at this
    omega
  unfold Buf.at?
  simp only
  rw [if_pos hlen, Nat.mul_comm a.c a.r, Nat.mul_comm b (a.r * a.c), Nat.add_mul_div_left _ _ (by omega), Nat.div_eq_of_lt hk,
    Nat.zero_add, Nat.add_mul_mod_self_left, Nat.mod_eq_of_lt hk, idx_mod j hi, idx_div j hi]

omit [DecidableEq K] in
/-- **C103** single columns for a vector field of a batch of solvers: each solver gets its column -/
theorem C103_batch_vector (a : Nd3 K) (hc : a.c = 1) {b : Nat} (hb : b < a.n) :
    ∃ buf, batchSet (.vec a.r) a b = .ok buf ∧ HoldsVec buf a.r (fun i => a.get b i 0) := by
  unfold batchSet
  simp only [Fld.dims, if_true, hc, Nat.one_mul, Nat.mul_one]
  rw [if_neg (by simp)]
  refine ⟨_, rfl, fun i hi => ?_⟩
  have hlen : i < a.n * a.r - b * a.r := by
    have : (b + 1) * a.r ≤ a.n * a.r := Nat.mul_le_mul_right _ hb
    rw [Nat.add_mul, Nat.one_mul] at this
    omega
  unfold Buf.at?
  simp only
  rw [if_pos hlen, Nat.mul_comm b, idx_div b hi, idx_mod b hi, Nat.mod_eq_of_lt hi, Nat.div_eq_of_lt hi]

/-! ## What goes wrong, and examples -/

/-- the matrix [[1, 2], [3, 4]] row by row in memory -/
def mC : Nd2 ℚ := ⟨fun k => k + 1, 0, 2, 2, 2, 1⟩
/-- the same matrix column by column -/
def mF : Nd2 ℚ := ⟨fun k => if k = 0 then 1 else if k = 1 then 3 else if k = 2 then 2 else 4, 0, 2, 2, 1, 2⟩
/-- every second element of 0, 1, 2, ... -/
def even : Nd1 ℚ := ⟨fun k => k, 0, 3, 2⟩

/-- the entries C reads for a 2 × 2 matrix, `none` if there is no buffer -/
def got (e : Except Err (Buf ℚ)) : Option (List (Option ℚ)) :=
  match e with
  | .ok b => some [b.at? 0, b.at? 1, b.at? 2, b.at? 3]
  | .error _ => none

/-- the kind of failure -/
def err (e : Except Err (Buf ℚ)) : Option Err :=
  match e with
  | .ok _ => none
  | .error e => some e

/-- **C103, limits** with `api='old'` a matrix in C order is transposed -/
theorem C103_old_counterexample :
    got (modelSet 5 0 (some (.mat 2 2)) .old (some (.mat mC))) = some [some 1, some 2, some 3, some 4] ∧
    got (modelSet 5 0 (some (.mat 2 2)) .new (some (.mat mC))) = some [some 1, some 3, some 2, some 4] ∧
    err (modelSet 5 0 (some (.mat 2 2)) .warn (some (.mat mC))) = some .raise ∧
    got (modelSet 5 0 (some (.mat 2 2)) .warn (some (.mat mF))) = some [some 1, some 3, some 2, some 4] := by
  decide +kernel

/-- **C103, limits** a matrix without columns is accepted for a vector; C reads beyond the buffer -/
theorem C103_empty_counterexample :
    got (modelSet 5 0 (some (.vec 3)) .warn (some (.mat ⟨fun _ => 0, 0, 3, 0, 1, 1⟩))) = some [none, none, none, none] := by
  decide +kernel

/-- **C103, limits** an unknown field ends the process -/
theorem C103_field_counterexample : err (modelSet 5 0 none .warn (some (.num 1))) = some .exit := by decide +kernel

/-- **C103, limits** `set` accepts a matrix with two columns for a vector with two entries: C gets the first row -/
theorem C103_set_counterexample :
    got (fieldSet 5 0 2 (.mat mC)) = some [some 1, some 2, some 3, some 4] ∧ mC.get 0 0 = 1 ∧ mC.get 1 0 = 3 := by
  decide +kernel

/-- **C103, limits** the integrator reads a matrix in C order after it has been freed -/
theorem C103_sim_counterexample : err (simSet 4 (.mat mC)) = some .ub ∧
    got (simSet 4 (.mat mF)) = some [some 1, some 3, some 2, some 4] := by decide +kernel

/-- one parameter at stage 0, three at the others -/
def np0 : Nat → Nat := fun s => if s = 0 then 1 else 3

/-- the parameters of stages 0 and 1 -/
def params (e : Except Err (Int → ℚ)) : Option (ℚ × ℚ × ℚ × ℚ) :=
  match e with
  | .ok h => some (h 0, h 1, h 2, h 3)
  | .error _ => none

/-- **C103, limits** `set_params_sparse` with every second element of an array uses the elements in between; a negative index
changes a parameter of the stage before -/
theorem C103_sparse_counterexample :
    even.get 1 = 2 ∧
    params (setSparse np0 5 1 [0, 1, 2] even (fun _ => 9)) = some (9, 0, 1, 2) ∧
    params (setSparse np0 5 1 [-1] ⟨fun _ => 7, 0, 1, 1⟩ (fun _ => 9)) = some (7, 9, 9, 9) := by decide +kernel

/-- time steps 1, 1 in use, and other arrays -/
def ts0 : Ts ℚ := ⟨fun id => if id = 0 then ⟨fun _ => 1, 0, 2, 1⟩ else if id = 1 then ⟨fun _ => 2, 0, 2, 1⟩ else
  ⟨fun k => k, 0, 2, 2⟩, 2, fun _ => 1, 0⟩

/-- **C103, limits** the description keeps a reference to the array of the user: when that array is changed and passed again,
it is equal to itself, and nothing happens -/
theorem C103_time_steps_counterexample :
    let s := run [.set 1, .change 1 0 5, .set 1] ts0
    (s.objs 1).get 0 = 5 ∧ s.cTs 0 = 2 := by decide +kernel

/-- **C103, limits** time steps that are not consecutive in memory are read wrongly -/
theorem C103_time_steps_stride_counterexample :
    let s := run [.set 2] ts0
    (s.objs 2).get 1 = 2 ∧ s.cTs 1 = 1 := by decide +kernel

/-- **C103, limits** a batch of 1 × 2 matrices for a field with 2 × 1 matrices is accepted, although a single solver refuses
such a matrix -/
theorem C103_batch_counterexample :
    err (batchSet (.mat 2 1) (⟨3, 1, 2, fun b i j => b + i + j⟩ : Nd3 ℚ) 1) = none ∧
    err (modelSet 5 0 (some (.mat 2 1)) .new (some (.mat ⟨fun k => k, 0, 1, 2, 2, 1⟩))) = some .raise := by decide +kernel

/-- `C103_matrix`, `C103_warn`, `C103_warn_accepts`, `C103_roundtrip`: a view with strides, a reversed one -/
example : got (modelSet 5 2 (some (.mat 2 2)) .new (some (.mat ⟨fun k => k, 10, 2, 2, -1, 3⟩))) =
    some [some 10, some 9, some 13, some 12] := by decide +kernel

example : ∀ i < 2, ∀ j < 2, (modelGet 2 2 (fun i j => (colMajor mC).val (i + 2 * j))).get i j = mC.get i j :=
  C103_roundtrip (a := mC) (b := colMajor mC) (holds_col mC) (fun i hi j hj => by
    unfold Buf.at?
    rw [if_pos (show i + mC.r * j < (colMajor mC).len from idx_lt hi hj)]
    rfl)

/-- `C103_vector`, `C103_set_partial`, `C103_sim_partial`, `C103_refuse`, `C103_inbounds_partial`: every second element -/
example : got (modelSet 5 5 (some (.vec 3)) .warn (some (.vec even))) = some [some 0, some 2, some 4, none] ∧
    got (fieldSet 5 5 3 (.vec even)) = some [some 0, some 2, some 4, none] ∧
    got (simSet 3 (.vec even)) = some [some 0, some 2, some 4, none] ∧
    err (modelSet 5 6 (some (.vec 3)) .warn (some (.vec even))) = some .raise := by decide +kernel

/-- `C103_sparse_partial` -/
example : params (setSparse np0 5 1 [2, 0] ⟨fun k => k, 4, 2, 1⟩ (fun _ => 9)) = some (9, 5, 9, 4) := by decide +kernel

/-- arrays of two steps -/
def ts1 : Ts ℚ := ⟨fun id => ⟨fun _ => id + 1, 0, 2, 1⟩, 2, fun _ => 1, 0⟩

/-- `C103_time_steps_partial`: an array is changed before it is passed -/
example : let s := run ([.change 1 0 5] ++ [.set 1]) ts1
    InUse s.cN s.cTs (s.objs 1) ∧ s.cTs 0 = 5 :=
  ⟨C103_time_steps_partial (s := ts1) (l := [.change 1 0 5]) (fun _ => rfl) ⟨rfl, fun _ _ => (by decide +kernel : (1 : ℚ) = ((0 : Nat) : ℚ) + 1)⟩
    (fun l1 l2 id i x e => by
      cases l1 with
      | nil => cases e; exact ⟨by decide, List.not_mem_nil⟩
      | cons a l1 =>
        injection e with _ e
        exact absurd e (by simp)) 1, by decide +kernel⟩

/-- `C103_batch_partial` -/
example : got (batchSet (.mat 2 2) (⟨3, 2, 2, fun b i j => 100 * b + 10 * i + j⟩ : Nd3 ℚ) 1) =
    some [some 100, some 110, some 101, some 111] := by decide +kernel

/-- `C103_batch_vector` -/
example : got (batchSet (.vec 2) (⟨3, 2, 1, fun b i j => 100 * b + 10 * i + j⟩ : Nd3 ℚ) 2) =
    some [some 200, some 210, none, none] := by decide +kernel

end Acados.PyArr
