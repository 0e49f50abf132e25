import Verif.Model.ParamManager
import Mathlib.Tactic.Linarith
import Mathlib.Data.List.Nodup
/-!
# Lemmas on the management of parameters
-/
namespace Acados.ParamManager
variable {ν K : Type} [DecidableEq ν]

/-! ### dictionaries -/

theorem dget_cons {β : Type} (e : ν × β) (d : List (ν × β)) (m : ν) : dget (e :: d) m = if e.1 = m then some e.2 else dget d m := by
  unfold dget
  rw [List.find?_cons]
  by_cases h : e.1 = m <;> simp [h]

theorem dget_append {β : Type} (d d' : List (ν × β)) (m : ν) : dget (d ++ d') m = (dget d m).or (dget d' m) := by
  induction d with
  | nil => simp [dget]
  | cons e d ih =>
    rw [List.cons_append, dget_cons, dget_cons, ih]
    split <;> rfl

theorem dget_none {β : Type} (d : List (ν × β)) (m : ν) : dget d m = none ↔ m ∉ d.map (·.1) := by
  induction d with
  | nil => simp [dget]
  | cons e d ih =>
    rw [dget_cons, List.map_cons, List.mem_cons, not_or]
    by_cases h : e.1 = m
    · rw [if_pos h]; simp [h.symm]
    · rw [if_neg h, ih]; simp [Ne.symm h]

theorem dget_mem {β : Type} {d : List (ν × β)} {m : ν} {v : β} (h : dget d m = some v) : (m, v) ∈ d := by
  induction d with
  | nil => simp [dget] at h
  | cons e d ih =>
    rw [dget_cons] at h
    by_cases he : e.1 = m
    · rw [if_pos he] at h
      cases h
      rw [← he]
      exact List.mem_cons_self
    · rw [if_neg he] at h
      exact List.mem_cons_of_mem _ (ih h)

theorem dget_of_mem {β : Type} {d : List (ν × β)} (hn : (d.map (·.1)).Nodup) {m : ν} {v : β} (h : (m, v) ∈ d) : dget d m = some v := by
  induction d with
  | nil => cases h
  | cons e d ih =>
    rw [List.map_cons, List.nodup_cons] at hn
    rw [dget_cons]
    rcases List.mem_cons.1 h with h | h
    · rw [← h, if_pos rfl]
    · rw [if_neg, ih hn.2 h]
      intro he
      apply hn.1
      rw [he]
      exact List.mem_map.2 ⟨_, h, rfl⟩

theorem any_key {β : Type} (d : List (ν × β)) (n : ν) : d.any (fun e => decide (e.1 = n)) = true ↔ n ∈ d.map (·.1) := by
  rw [List.any_eq_true, List.mem_map]
  simp

theorem keys_dset {β : Type} (d : List (ν × β)) (n : ν) (v : β) (h : n ∈ d.map (·.1)) : (dset d n v).map (·.1) = d.map (·.1) := by
  unfold dset
  rw [if_pos ((any_key d n).2 h), List.map_map]
  apply List.map_congr_left
  intro e _
  simp only [Function.comp]
  by_cases he : e.1 = n <;> simp [he]

theorem dget_map {β γ : Type} (d : List (ν × β)) (f : β → γ) (m : ν) : dget (d.map fun e => (e.1, f e.2)) m = (dget d m).map f := by
  induction d with
  | nil => rfl
  | cons e d ih =>
    rw [List.map_cons, dget_cons, dget_cons, ih]
    split <;> rfl

theorem dget_dset {β : Type} (d : List (ν × β)) (n m : ν) (v : β) : dget (dset d n v) m = if m = n then some v else dget d m := by
  unfold dset
  by_cases h : n ∈ d.map (·.1)
  · rw [if_pos ((any_key d n).2 h)]
    induction d with
    | nil => cases h
    | cons e d ih =>
      rw [List.map_cons, dget_cons, dget_cons]
      by_cases he : e.1 = n
      · rw [if_pos he]
        dsimp only
        by_cases hm : m = n
        · rw [if_pos hm.symm, if_pos hm]
        · rw [if_neg (Ne.symm hm), if_neg hm, he, if_neg (Ne.symm hm)]
          by_cases hd : n ∈ d.map (·.1)
          · rw [ih hd, if_neg hm]
          · congr 1
            have : ∀ x ∈ d, (if x.1 = n then (n, v) else x) = x := by
              intro x hx
              rw [if_neg]
              intro hxn
              exact hd (List.mem_map.2 ⟨x, hx, hxn⟩)
            rw [List.map_congr_left this, List.map_id']
      · rw [if_neg he]
        have hd : n ∈ d.map (·.1) := by
          rw [List.map_cons, List.mem_cons] at h
          rcases h with h | h
          · exact absurd h.symm he
          · exact h
        rw [ih hd]
        by_cases hm : m = n
        · rw [if_pos hm, hm, if_neg he, if_pos rfl]
        · rw [if_neg hm, if_neg hm]
  · rw [if_neg (fun hc => h ((any_key d n).1 hc)), dget_append, dget_cons]
    by_cases hm : m = n
    · rw [if_pos hm, if_pos hm.symm, hm, (dget_none d n).2 h]
      rfl
    · rw [if_neg hm, if_neg (Ne.symm hm)]
      simp [dget]

theorem mem_dset {β : Type} {d : List (ν × β)} {n : ν} {v : β} {e : ν × β} (h : e ∈ dset d n v) : e = (n, v) ∨ e ∈ d := by
  unfold dset at h
  split at h
  · obtain ⟨x, hx, he⟩ := List.mem_map.1 h
    split at he
    · left; exact he.symm
    · right; rw [← he]; exact hx
  · rcases List.mem_append.1 h with h | h
    · exact Or.inr h
    · left; simpa using h

theorem foldl_dset_new {β : Type} (l d : List (ν × β)) (h : ((d ++ l).map (·.1)).Nodup) :
    l.foldl (fun d p => dset d p.1 p.2) d = d ++ l := by
  induction l generalizing d with
  | nil => simp
  | cons e l ih =>
    rw [List.foldl_cons]
    have hn : e.1 ∉ d.map (·.1) := by
      rw [List.map_append, List.nodup_append] at h
      intro hm
      exact h.2.2 _ hm _ (by simp) rfl
    have he : dset d e.1 e.2 = d ++ [e] := by
      unfold dset
      rw [if_neg (fun hc => hn ((any_key d _).1 hc))]
    rw [he, ih]
    · simp
    · simpa using h

/-- entries of `l` replace those of `d` -/
theorem dget_foldl {β : Type} (l d : List (ν × β)) (hn : (l.map (·.1)).Nodup) (m : ν) :
    dget (l.foldl (fun d p => dset d p.1 p.2) d) m = (dget l m).or (dget d m) := by
  induction l generalizing d with
  | nil => simp [dget]
  | cons e l ih =>
    rw [List.map_cons, List.nodup_cons] at hn
    rw [List.foldl_cons, ih _ hn.2, dget_cons, dget_dset]
    by_cases h : e.1 = m
    · rw [if_pos h, if_pos h.symm, ← h, (dget_none l _).2 hn.1]
      rfl
    · rw [if_neg h, if_neg (Ne.symm h)]

theorem keys_foldl {β : Type} (l d : List (ν × β)) (h : ∀ e ∈ l, e.1 ∈ d.map (·.1)) :
    (l.foldl (fun d p => dset d p.1 p.2) d).map (·.1) = d.map (·.1) := by
  induction l generalizing d with
  | nil => rfl
  | cons e l ih =>
    have hk := keys_dset d e.1 e.2 (h e List.mem_cons_self)
    rw [List.foldl_cons, ih, hk]
    intro x hx
    rw [hk]
    exact h x (List.mem_cons_of_mem _ hx)

theorem mem_foldl {β : Type} {l d : List (ν × β)} {e : ν × β} (h : e ∈ l.foldl (fun d p => dset d p.1 p.2) d) : e ∈ l ∨ e ∈ d := by
  induction l generalizing d with
  | nil => exact Or.inr h
  | cons x l ih =>
    rw [List.foldl_cons] at h
    rcases ih h with h | h
    · exact Or.inl (List.mem_cons_of_mem _ h)
    · rcases mem_dset h with h | h
      · exact Or.inl (by rw [h]; exact List.mem_cons_self)
      · exact Or.inr h

/-! ### states -/

/-- the value at a stage, whatever the horizon -/
def look (s : St ν K) (i : Nat) (m : ν) : Option (Val K) := (s.values[i]?.bind (dget · m)).map s.heap

theorem getValue_eq (s : St ν K) (m : ν) (i : Nat) (h : i ≤ s.N) : getValue s m (i : Int) = look s i m := by
  unfold getValue getRef dictAt look
  rw [if_neg (by omega), Int.toNat_natCast]

/-- references in use are below `next`, stage 0 exists -/
structure Wf (s : St ν K) : Prop where
  len : s.N < s.values.length
  refs : ∀ d ∈ s.values, ∀ e ∈ d, e.2 < s.next
  prefs : ∀ e ∈ s.params, e.2 < s.next
  pnodup : (s.params.map (·.1)).Nodup

/-- the dictionaries have the keys of the symbols, in this order, and the sizes fit -/
structure Lay (s : St ν K) : Prop where
  nodup : (s.syms.map (·.1)).Nodup
  keys : ∀ d ∈ s.values, d.map (·.1) = s.syms.map (·.1)
  pkeys : ∀ e ∈ s.params, e.1 ∈ s.syms.map (·.1)
  size : ∀ d ∈ s.values, ∀ e ∈ d, ∀ t ∈ s.syms, t.1 = e.1 → (s.heap e.2).vec.length = t.2.1 * t.2.2
  psize : ∀ e ∈ s.params, ∀ t ∈ s.syms, t.1 = e.1 → (s.heap e.2).vec.length = t.2.1 * t.2.2

theorem copy_heap_old (s : St ν K) (a : Nat) (h : a < s.next) : (appendCopy s).heap a = s.heap a := by
  unfold appendCopy
  dsimp only
  rw [if_neg (by omega)]

theorem copy_ref (s : St ν K) (e : ν × Nat) (he : e ∈ s.values.headD []) :
    s.next + ((s.values.headD []).map (·.2)).idxOf e.2 < (appendCopy s).next
    ∧ (appendCopy s).heap (s.next + ((s.values.headD []).map (·.2)).idxOf e.2) = s.heap e.2 := by
  have hm : e.2 ∈ (s.values.headD []).map (·.2) := List.mem_map.2 ⟨e, he, rfl⟩
  have hl := List.idxOf_lt_length_of_mem hm
  unfold appendCopy
  dsimp only
  refine ⟨by omega, ?_⟩
  rw [if_pos (by omega), Nat.add_sub_cancel_left, List.getD_eq_getElem?_getD, List.getElem?_eq_getElem hl, List.getElem_idxOf hl]
  rfl

theorem headD_mem (s : St ν K) (h : s.values ≠ []) : s.values.headD [] ∈ s.values ∧ s.values[0]? = some (s.values.headD []) := by
  cases hv : s.values with
  | nil => exact absurd hv h
  | cons d l => exact ⟨List.mem_cons_self, rfl⟩

theorem wf_ne {s : St ν K} (h : Wf s) : s.values ≠ [] := by
  intro hc
  have := h.len
  rw [hc] at this
  simp at this

theorem copy_mem {s : St ν K} {d : List (ν × Nat)} (h : d ∈ (appendCopy s).values) :
    d ∈ s.values ∨ d = (s.values.headD []).map fun e => (e.1, s.next + ((s.values.headD []).map (·.2)).idxOf e.2) := by
  unfold appendCopy at h
  dsimp only at h
  rcases List.mem_append.1 h with h | h
  · exact Or.inl h
  · exact Or.inr (by simpa using h)

theorem copy_len (s : St ν K) : (appendCopy s).values.length = s.values.length + 1 := by
  unfold appendCopy
  simp

theorem copy_next (s : St ν K) : s.next ≤ (appendCopy s).next := by
  unfold appendCopy
  dsimp only
  omega

theorem copy_wf {s : St ν K} (h : Wf s) : Wf (appendCopy s) := by
  refine ⟨?_, ?_, ?_, h.pnodup⟩
  · rw [copy_len]
    have := h.len
    show s.N < _
    omega
  · intro d hd e he
    rcases copy_mem hd with hd | rfl
    · exact lt_of_lt_of_le (h.refs d hd e he) (copy_next s)
    · obtain ⟨x, hx, rfl⟩ := List.mem_map.1 he
      exact (copy_ref s x hx).1
  · intro e he
    exact lt_of_lt_of_le (h.prefs e he) (copy_next s)

theorem copy_lay {s : St ν K} (hw : Wf s) (h : Lay s) : Lay (appendCopy s) := by
  have hh := headD_mem s (wf_ne hw)
  refine ⟨h.nodup, ?_, h.pkeys, ?_, ?_⟩
  · intro d hd
    rcases copy_mem hd with hd | rfl
    · exact h.keys d hd
    · rw [List.map_map]
      exact h.keys _ hh.1
  · intro d hd e he t ht hte
    rcases copy_mem hd with hd | rfl
    · rw [copy_heap_old s _ (hw.refs d hd e he)]
      exact h.size d hd e he t ht hte
    · obtain ⟨x, hx, rfl⟩ := List.mem_map.1 he
      dsimp only
      rw [(copy_ref s x hx).2]
      exact h.size _ hh.1 x hx t ht hte
  · intro e he t ht hte
    rw [copy_heap_old s _ (hw.prefs e he)]
    exact h.psize e he t ht hte

theorem copy_look {s : St ν K} (hw : Wf s) (i : Nat) (m : ν) : look (appendCopy s) i m
    = if i < s.values.length then look s i m else if i = s.values.length then look s 0 m else none := by
  have hh := headD_mem s (wf_ne hw)
  unfold look
  by_cases hi : i < s.values.length
  · rw [if_pos hi]
    have e1 : (appendCopy s).values[i]? = s.values[i]? := List.getElem?_append_left hi
    rw [e1, List.getElem?_eq_getElem hi]
    simp only [Option.bind_some]
    cases hd : dget s.values[i] m with
    | none => rfl
    | some r =>
      simp only [Option.map_some]
      rw [copy_heap_old s r (hw.refs _ (List.getElem_mem hi) _ (dget_mem hd))]
  · rw [if_neg hi]
    by_cases he : i = s.values.length
    · rw [if_pos he, he]
      have e1 : (appendCopy s).values[s.values.length]?
          = some ((s.values.headD []).map fun e => (e.1, s.next + ((s.values.headD []).map (·.2)).idxOf e.2)) := by
        unfold appendCopy
        simp
      rw [e1, hh.2]
      simp only [Option.bind_some]
      have := dget_map (s.values.headD []) (fun r => s.next + ((s.values.headD []).map (·.2)).idxOf r) m
      rw [this]
      cases hd : dget (s.values.headD []) m with
      | none => rfl
      | some r =>
        simp only [Option.map_some]
        rw [(copy_ref s (m, r) (dget_mem hd)).2]
    · rw [if_neg he, List.getElem?_eq_none (by rw [copy_len]; omega)]
      rfl

theorem copies_props {s : St ν K} (hw : Wf s) (k : Nat) :
    Wf (appendCopies k s) ∧ (appendCopies k s).values.length = s.values.length + k ∧ (appendCopies k s).N = s.N
    ∧ (appendCopies k s).params = s.params ∧ (appendCopies k s).syms = s.syms
    ∧ (∀ a, a < s.next → (appendCopies k s).heap a = s.heap a)
    ∧ (Lay s → Lay (appendCopies k s))
    ∧ ∀ i m, look (appendCopies k s) i m
      = if i < s.values.length then look s i m else if i < s.values.length + k then look s 0 m else none := by
  induction k generalizing s with
  | zero =>
    refine ⟨hw, rfl, rfl, rfl, rfl, fun _ _ => rfl, fun h => h, ?_⟩
    intro i m
    show look s i m = _
    by_cases hi : i < s.values.length
    · rw [if_pos hi]
    · rw [if_neg hi, if_neg (by omega)]
      unfold look
      rw [List.getElem?_eq_none (by omega)]
      rfl
  | succ k ih =>
    obtain ⟨h1, h2, h3, h4, h5, h6, h7, h8⟩ := ih (copy_wf hw)
    show Wf (appendCopies k (appendCopy s)) ∧ (appendCopies k (appendCopy s)).values.length = _ ∧ (appendCopies k (appendCopy s)).N = _
      ∧ (appendCopies k (appendCopy s)).params = _ ∧ (appendCopies k (appendCopy s)).syms = _
      ∧ (∀ a, a < s.next → (appendCopies k (appendCopy s)).heap a = s.heap a) ∧ (Lay s → Lay (appendCopies k (appendCopy s)))
      ∧ ∀ i m, look (appendCopies k (appendCopy s)) i m = _
    refine ⟨h1, by rw [h2, copy_len]; omega, h3, h4, h5, ?_, fun hl => h7 (copy_lay hw hl), ?_⟩
    · intro a ha
      rw [h6 a (lt_of_lt_of_le ha (copy_next s)), copy_heap_old s a ha]
    · intro i m
      have hpos := hw.len
      rw [h8, copy_len]
      by_cases hi : i < s.values.length
      · rw [if_pos (by omega), if_pos hi, copy_look hw, if_pos hi]
      · rw [if_neg hi]
        by_cases he : i = s.values.length
        · rw [if_pos (by omega), if_pos (by omega), copy_look hw, if_neg hi, if_pos he]
        · rw [if_neg (by omega)]
          by_cases hk : i < s.values.length + (k + 1)
          · rw [if_pos (by omega), if_pos hk, copy_look hw, if_pos (by omega)]
          · rw [if_neg (by omega), if_neg hk]

theorem defaults_get (params : List (ν × Nat)) (lo hi : Nat) (values : List (List (ν × Nat))) (i : Nat) :
    (defaults params lo hi values)[i]?
      = values[i]?.map fun d => if lo ≤ i ∧ i < hi then params.foldl (fun d p => dset d p.1 p.2) d else d := by
  unfold defaults
  induction params generalizing values with
  | nil =>
    show values[i]? = _
    cases values[i]? with
    | none => rfl
    | some d => simp
  | cons p l ih =>
    rw [List.foldl_cons, ih, List.getElem?_map, List.getElem?_zipIdx, Option.map_map, Option.map_map]
    cases values[i]? with
    | none => rfl
    | some d =>
      simp only [Option.map_some, Function.comp, Nat.zero_add]
      by_cases h : lo ≤ i ∧ i < hi
      · simp only [if_pos h, List.foldl_cons]
      · simp only [if_neg h]

theorem defaults_len (params : List (ν × Nat)) (lo hi : Nat) (values : List (List (ν × Nat))) :
    (defaults params lo hi values).length = values.length := by
  unfold defaults
  induction params generalizing values with
  | nil => rfl
  | cons p l ih =>
    rw [List.foldl_cons, ih, List.length_map, List.length_zipIdx]

theorem defaults_mem {params : List (ν × Nat)} {lo hi : Nat} {values : List (List (ν × Nat))} {d : List (ν × Nat)}
    (h : d ∈ defaults params lo hi values) : ∃ d' ∈ values, d = d' ∨ d = params.foldl (fun d p => dset d p.1 p.2) d' := by
  obtain ⟨i, hi'⟩ := List.mem_iff_getElem?.1 h
  rw [defaults_get] at hi'
  obtain ⟨d', h1, h2⟩ := Option.map_eq_some_iff.1 hi'
  refine ⟨d', List.mem_of_getElem? h1, ?_⟩
  split at h2
  · exact Or.inr h2.symm
  · exact Or.inl h2.symm

/-- the state after changing the horizon -/
def horizonSt (s : St ν K) (n : Nat) : St ν K :=
  { appendCopies (n - (s.values.length - 1)) s with
    values := defaults s.params s.N n (appendCopies (n - (s.values.length - 1)) s).values, N := n }

theorem setHorizon_eq {s : St ν K} (hw : Wf s) (n : Nat) : setHorizon s (n : Int) = some (horizonSt s n) := by
  obtain ⟨_, _, h3, h4, _⟩ := copies_props hw (n - (s.values.length - 1))
  unfold setHorizon horizonSt
  rw [if_neg (by omega), Int.toNat_natCast]
  dsimp only
  rw [h3, h4]

theorem horizon_wf {s : St ν K} (hw : Wf s) (n : Nat) : Wf (horizonSt s n) := by
  obtain ⟨h1, h2, h3, h4, h5, h6, h7, h8⟩ := copies_props hw (n - (s.values.length - 1))
  have hl := hw.len
  refine ⟨?_, ?_, h1.prefs, h1.pnodup⟩
  · show n < (defaults s.params s.N n (appendCopies (n - (s.values.length - 1)) s).values).length
    rw [defaults_len, h2]
    omega
  · intro d hd e he
    obtain ⟨d', hd', rfl | rfl⟩ := defaults_mem hd
    · exact h1.refs d hd' e he
    · rcases mem_foldl he with he | he
      · exact h1.prefs e (by rw [h4]; exact he)
      · exact h1.refs d' hd' e he

theorem horizon_lay {s : St ν K} (hw : Wf s) (h : Lay s) (n : Nat) : Lay (horizonSt s n) := by
  obtain ⟨h1, h2, h3, h4, h5, h6, h7, h8⟩ := copies_props hw (n - (s.values.length - 1))
  have hl := h7 h
  refine ⟨hl.nodup, ?_, hl.pkeys, ?_, hl.psize⟩
  · intro d hd
    obtain ⟨d', hd', rfl | rfl⟩ := defaults_mem hd
    · exact hl.keys d hd'
    · rw [keys_foldl]
      · exact hl.keys d' hd'
      · intro e he
        rw [hl.keys d' hd']
        exact hl.pkeys e (by rw [h4]; exact he)
  · intro d hd e he t ht hte
    obtain ⟨d', hd', rfl | rfl⟩ := defaults_mem hd
    · exact hl.size d hd' e he t ht hte
    · rcases mem_foldl he with he | he
      · exact hl.psize e (by rw [h4]; exact he) t ht hte
      · exact hl.size d' hd' e he t ht hte

theorem horizon_look {s : St ν K} (hw : Wf s) (n i : Nat) (m : ν) (hi : i ≤ n) : look (horizonSt s n) i m
    = if s.N ≤ i ∧ i < n then ((dget s.params m).map s.heap).or (if i < s.values.length then look s i m else look s 0 m)
      else if i < s.values.length then look s i m else look s 0 m := by
  obtain ⟨h1, h2, h3, h4, h5, h6, h7, h8⟩ := copies_props hw (n - (s.values.length - 1))
  have hl := hw.len
  have hlook : look (appendCopies (n - (s.values.length - 1)) s) i m = if i < s.values.length then look s i m else look s 0 m := by
    rw [h8]
    by_cases hil : i < s.values.length
    · rw [if_pos hil, if_pos hil]
    · rw [if_neg hil, if_neg hil, if_pos (by omega)]
  rw [← hlook]
  show Option.map _ ((defaults s.params s.N n (appendCopies (n - (s.values.length - 1)) s).values)[i]?.bind (dget · m)) = _
  rw [defaults_get]
  have hin : i < (appendCopies (n - (s.values.length - 1)) s).values.length := by rw [h2]; omega
  unfold look
  rw [List.getElem?_eq_getElem hin]
  simp only [Option.map_some, Option.bind_some]
  by_cases hc : s.N ≤ i ∧ i < n
  · rw [if_pos hc, if_pos hc, dget_foldl _ _ hw.pnodup]
    cases hd : dget s.params m with
    | none => rfl
    | some r =>
      show some ((appendCopies (n - (s.values.length - 1)) s).heap r) = some (s.heap r)
      rw [h6 r (hw.prefs _ (dget_mem hd))]
  · rw [if_neg hc, if_neg hc]
    rfl

/-! ### setting a value -/

/-- the state after setting a new array at a stage -/
def setSt (s : St ν K) (name : ν) (v : Val K) (i : Nat) : St ν K :=
  { s with heap := fun a => if a = s.next then v else s.heap a, next := s.next + 1,
           values := s.values.set i (dset (s.values.getD i []) name s.next) }

theorem setRef_eq {s : St ν K} (hw : Wf s) (name : ν) (v : Val K) (i : Nat) (hi : i ≤ s.N) :
    setRef (alloc s v) name s.next (i : Int) = some (setSt s name v i) := by
  have hl := hw.len
  have hlt : i < s.values.length := by omega
  unfold setRef dictAt alloc setSt
  dsimp only
  rw [if_neg (by omega), Int.toNat_natCast, List.getElem?_eq_getElem hlt, List.getD_eq_getElem?_getD, List.getElem?_eq_getElem hlt]
  rfl

theorem setRef_none (s : St ν K) (name : ν) (r : Nat) (stage : Int) (h : stage < 0 ∨ (s.N : Int) < stage) :
    setRef s name r stage = none := by
  unfold setRef dictAt
  rw [if_pos (by omega)]
  rfl

theorem set_mem {s : St ν K} (hw : Wf s) {name : ν} {v : Val K} {i : Nat} (hi : i ≤ s.N) {d : List (ν × Nat)} (h : d ∈ (setSt s name v i).values) :
    d ∈ s.values ∨ ∃ d' ∈ s.values, d = dset d' name s.next := by
  have hl := hw.len
  have hlt : i < s.values.length := by omega
  rcases List.mem_or_eq_of_mem_set h with h | h
  · exact Or.inl h
  · refine Or.inr ⟨s.values[i], List.getElem_mem hlt, ?_⟩
    rw [h, List.getD_eq_getElem?_getD, List.getElem?_eq_getElem hlt]
    rfl

theorem set_wf {s : St ν K} (hw : Wf s) (name : ν) (v : Val K) (i : Nat) (hi : i ≤ s.N) : Wf (setSt s name v i) := by
  refine ⟨?_, ?_, ?_, hw.pnodup⟩
  · show s.N < (s.values.set i _).length
    rw [List.length_set]
    exact hw.len
  · intro d hd e he
    show e.2 < s.next + 1
    rcases set_mem hw hi hd with hd | ⟨d', hd', rfl⟩
    · have := hw.refs d hd e he
      omega
    · rcases mem_dset he with rfl | he
      · exact Nat.lt_succ_self _
      · have := hw.refs d' hd' e he
        omega
  · intro e he
    have := hw.prefs e he
    show e.2 < s.next + 1
    omega

theorem set_heap (s : St ν K) (name : ν) (v : Val K) (i a : Nat) (h : a < s.next) : (setSt s name v i).heap a = s.heap a := by
  show (if a = s.next then v else s.heap a) = _
  rw [if_neg (by omega)]

theorem set_lay {s : St ν K} (hw : Wf s) (h : Lay s) (name : ν) (v : Val K) (i : Nat) (hi : i ≤ s.N) (r c : Nat)
    (hm : (name, r, c) ∈ s.syms) (hv : v.vec.length = r * c) : Lay (setSt s name v i) := by
  refine ⟨h.nodup, ?_, h.pkeys, ?_, ?_⟩
  · intro d hd
    rcases set_mem hw hi hd with hd | ⟨d', hd', rfl⟩
    · exact h.keys d hd
    · rw [keys_dset]
      · exact h.keys d' hd'
      · rw [h.keys d' hd']
        exact List.mem_map.2 ⟨_, hm, rfl⟩
  · intro d hd e he t ht hte
    have old : ∀ d' ∈ s.values, e ∈ d' → ((setSt s name v i).heap e.2).vec.length = t.2.1 * t.2.2 := by
      intro d' hd' he'
      rw [set_heap s name v i _ (hw.refs d' hd' e he')]
      exact h.size d' hd' e he' t ht hte
    rcases set_mem hw hi hd with hd | ⟨d', hd', rfl⟩
    · exact old d hd he
    · rcases mem_dset he with rfl | he
      · show (if s.next = s.next then v else s.heap s.next).vec.length = _
        rw [if_pos rfl, hv]
        have h1 := dget_of_mem h.nodup hm
        have h2 := dget_of_mem h.nodup (show (t.1, t.2) ∈ s.syms from ht)
        dsimp only at hte
        rw [hte, h1] at h2
        have h2 := Option.some.inj h2
        rw [← h2]
      · exact old d' hd' he
  · intro e he t ht hte
    rw [set_heap s name v i _ (hw.prefs e he)]
    exact h.psize e he t ht hte

theorem set_look {s : St ν K} (hw : Wf s) (name : ν) (v : Val K) (i : Nat) (hi : i ≤ s.N) (k : Nat) (m : ν) :
    look (setSt s name v i) k m = if k = i ∧ m = name then some v else look s k m := by
  have hl := hw.len
  have hlt : i < s.values.length := by omega
  have hold : ∀ d ∈ s.values, (dget d m).map (setSt s name v i).heap = (dget d m).map s.heap := by
    intro d hd
    cases hg : dget d m with
    | none => rfl
    | some r =>
      show some _ = some _
      rw [set_heap s name v i _ (hw.refs d hd _ (dget_mem hg))]
  show Option.map _ ((s.values.set i (dset (s.values.getD i []) name s.next))[k]?.bind (dget · m)) = _
  rw [List.getElem?_set]
  by_cases hk : i = k
  · rw [if_pos hk, if_pos hlt]
    subst hk
    have hgd : s.values.getD i [] = s.values[i] := by
      rw [List.getD_eq_getElem?_getD, List.getElem?_eq_getElem hlt]
      rfl
    simp only [Option.bind_some]
    rw [hgd, dget_dset]
    by_cases hm : m = name
    · rw [if_pos hm, if_pos ⟨trivial, hm⟩]
      show some (if s.next = s.next then v else s.heap s.next) = _
      rw [if_pos rfl]
    · rw [if_neg hm, if_neg (fun h => hm h.2), hold _ (List.getElem_mem hlt)]
      unfold look
      rw [List.getElem?_eq_getElem hlt]
      rfl
  · rw [if_neg hk, if_neg (fun h => hk h.1.symm)]
    unfold look
    cases hg : s.values[k]? with
    | none => rfl
    | some d =>
      simp only [Option.bind_some]
      exact hold d (List.mem_of_getElem? hg)

/-! ### steps and histories -/

theorem step_set {s : St ν K} (hw : Wf s) (name : ν) (v : Val K) (stage : Int) :
    (∃ i : Nat, stage = i ∧ i ≤ s.N ∧ step s (.set name v stage) = setSt s name v i)
    ∨ ((stage < 0 ∨ (s.N : Int) < stage) ∧ step s (.set name v stage) = s) := by
  by_cases h : stage < 0 ∨ (s.N : Int) < stage
  · right
    refine ⟨h, ?_⟩
    show (setRef (alloc s v) name s.next stage).getD s = _
    rw [setRef_none (alloc s v) name s.next stage h]
    rfl
  · left
    refine ⟨stage.toNat, by omega, by omega, ?_⟩
    have e := setRef_eq hw name v stage.toNat (by omega)
    rw [show ((stage.toNat : Nat) : Int) = stage by omega] at e
    show (setRef (alloc s v) name s.next stage).getD s = _
    rw [e]
    rfl

theorem step_horizon {s : St ν K} (hw : Wf s) (n : Int) :
    step s (.horizon n) = if n < 0 then s else horizonSt s n.toNat := by
  show (setHorizon s n).getD s = _
  by_cases h : n < 0
  · rw [if_pos h]
    unfold setHorizon
    rw [if_pos h]
    rfl
  · rw [if_neg h]
    have e := setHorizon_eq hw n.toNat
    rw [show ((n.toNat : Nat) : Int) = n by omega] at e
    rw [e]
    rfl

theorem step_wf {s : St ν K} (hw : Wf s) (o : Op ν K) : Wf (step s o) := by
  cases o with
  | set name v stage =>
    rcases step_set hw name v stage with ⟨i, _, hi, e⟩ | ⟨_, e⟩
    · rw [e]; exact set_wf hw name v i hi
    · rw [e]; exact hw
  | horizon n =>
    rw [step_horizon hw]
    split
    · exact hw
    · exact horizon_wf hw _

theorem horizonSt_syms {s : St ν K} (hw : Wf s) (n : Nat) : (horizonSt s n).syms = s.syms ∧ (horizonSt s n).params = s.params
    ∧ ∀ a, a < s.next → (horizonSt s n).heap a = s.heap a := by
  obtain ⟨h1, h2, h3, h4, h5, h6, h7, h8⟩ := copies_props hw (n - (s.values.length - 1))
  exact ⟨h5, h4, h6⟩

theorem step_syms {s : St ν K} (hw : Wf s) (o : Op ν K) : (step s o).syms = s.syms ∧ (step s o).params = s.params
    ∧ (∀ e ∈ s.params, (step s o).heap e.2 = s.heap e.2) ∧ (step s o).N = o.horizonAfter s.N := by
  cases o with
  | set name v stage =>
    rcases step_set hw name v stage with ⟨i, _, hi, e⟩ | ⟨_, e⟩
    · rw [e]
      exact ⟨rfl, rfl, fun e he => set_heap s name v i _ (hw.prefs e he), rfl⟩
    · rw [e]; exact ⟨rfl, rfl, fun _ _ => rfl, rfl⟩
  | horizon n =>
    rw [step_horizon hw]
    show _ ∧ _ ∧ _ ∧ _ = (if n < 0 then s.N else n.toNat)
    split
    · exact ⟨rfl, rfl, fun _ _ => rfl, rfl⟩
    · obtain ⟨a, b, c⟩ := horizonSt_syms hw n.toNat
      exact ⟨a, b, fun e he => c _ (hw.prefs e he), rfl⟩

theorem step_lay {s : St ν K} (hw : Wf s) (h : Lay s) (o : Op ν K) (hf : Fits s.syms o) : Lay (step s o) := by
  cases o with
  | set name v stage =>
    obtain ⟨r, c, hm, hv⟩ := hf
    rcases step_set hw name v stage with ⟨i, _, hi, e⟩ | ⟨_, e⟩
    · rw [e]; exact set_lay hw h name v i hi r c hm hv
    · rw [e]; exact h
  | horizon n =>
    rw [step_horizon hw]
    split
    · exact h
    · exact horizon_lay hw h _

theorem run_wf {s : St ν K} (hw : Wf s) (l : List (Op ν K)) : Wf (run s l) := by
  induction l generalizing s with
  | nil => exact hw
  | cons o l ih => exact ih (step_wf hw o)

theorem run_syms {s : St ν K} (hw : Wf s) (l : List (Op ν K)) : (run s l).syms = s.syms ∧ (run s l).params = s.params
    ∧ (∀ e ∈ s.params, (run s l).heap e.2 = s.heap e.2) ∧ (run s l).N = horizonAfter s.N l := by
  induction l generalizing s with
  | nil => exact ⟨rfl, rfl, fun _ _ => rfl, rfl⟩
  | cons o l ih =>
    obtain ⟨a, b, c, d⟩ := step_syms hw o
    obtain ⟨a', b', c', d'⟩ := ih (step_wf hw o)
    show (run (step s o) l).syms = _ ∧ (run (step s o) l).params = _ ∧ (∀ e ∈ s.params, (run (step s o) l).heap e.2 = _)
      ∧ (run (step s o) l).N = horizonAfter (o.horizonAfter s.N) l
    refine ⟨a'.trans a, b'.trans b, ?_, by rw [d', d]⟩
    intro e he
    rw [c' e (by rw [b]; exact he), c e he]

theorem run_lay {s : St ν K} (hw : Wf s) (h : Lay s) (l : List (Op ν K)) (hf : ∀ o ∈ l, Fits s.syms o) : Lay (run s l) := by
  induction l generalizing s with
  | nil => exact h
  | cons o l ih =>
    refine ih (step_wf hw o) (step_lay hw h o (hf o List.mem_cons_self)) ?_
    intro o' ho'
    rw [(step_syms hw o).1]
    exact hf o' (List.mem_cons_of_mem _ ho')

theorem run_append (s : St ν K) (l l' : List (Op ν K)) : run s (l ++ l') = run (run s l) l' := by
  induction l generalizing s with
  | nil => rfl
  | cons o l ih => exact ih (step s o)

/-- without growth the values are those of the table -/
theorem run_table {s : St ν K} (hw : Wf s) (T : Nat → ν → Val K) (names : List ν) (hT : ∀ i, i ≤ s.N → ∀ m ∈ names, look s i m = some (T i m))
    (l : List (Op ν K)) (hg : NoGrowth s.N l) : ∀ i, i ≤ (run s l).N → ∀ m ∈ names, look (run s l) i m = some (tableAfter s.N T l i m) := by
  induction l generalizing s T with
  | nil => exact hT
  | cons o l ih =>
    obtain ⟨hg1, hg2⟩ := hg
    have hN := (step_syms hw o).2.2.2
    rw [← hN] at hg2
    have key : ∀ i, i ≤ (step s o).N → ∀ m ∈ names, look (step s o) i m = some (o.table s.N T i m) := by
      intro i hi m hm
      cases o with
      | set name v stage =>
        show _ = some (if (i : Int) = stage ∧ m = name ∧ i ≤ s.N then v else T i m)
        have hiN : i ≤ s.N := by rw [hN] at hi; exact hi
        rcases step_set hw name v stage with ⟨k, hk, hk2, e⟩ | ⟨hs, e⟩
        · rw [e, set_look hw name v k hk2]
          by_cases hc : i = k ∧ m = name
          · rw [if_pos hc, if_pos ⟨by omega, hc.2, by omega⟩]
          · rw [if_neg hc, if_neg (fun h => hc ⟨by omega, h.2.1⟩)]
            exact hT i hiN m hm
        · rw [e, if_neg (by omega)]
          exact hT i hiN m hm
      | horizon n =>
        show _ = some (T i m)
        rw [hN] at hi
        have hle : i ≤ s.N := le_trans hi hg1
        rw [step_horizon hw]
        split
        · exact hT i hle m hm
        · rename_i hn
          have hg1' : n.toNat ≤ s.N := by
            have : (Op.horizon n : Op ν K).horizonAfter s.N = n.toNat := by
              show (if n < 0 then s.N else n.toNat) = _
              rw [if_neg hn]
            rw [this] at hg1
            exact hg1
          have hi' : i ≤ n.toNat := by
            have : (Op.horizon n : Op ν K).horizonAfter s.N = n.toNat := by
              show (if n < 0 then s.N else n.toNat) = _
              rw [if_neg hn]
            rw [this] at hi
            exact hi
          rw [horizon_look hw n.toNat i m hi', if_neg (by omega), if_pos (by have := hw.len; omega)]
          exact hT i hle m hm
    have := ih (step_wf hw o) (o.table s.N T) key hg2
    rw [hN] at this
    exact this

/-- if only the horizon changes, all values (also those of stages beyond the horizon) stay the defaults -/
theorem run_default {s : St ν K} (hw : Wf s) (hT : ∀ e ∈ s.params, ∀ i, i < s.values.length → look s i e.1 = some (s.heap e.2))
    (l : List (Op ν K)) (ho : OnlyHorizon l) :
    ∀ e ∈ s.params, ∀ i, i < (run s l).values.length → look (run s l) i e.1 = some (s.heap e.2) := by
  induction l generalizing s with
  | nil => exact hT
  | cons o l ih =>
    obtain ⟨n, rfl⟩ := ho o List.mem_cons_self
    have hsy := step_syms hw (.horizon n : Op ν K)
    have hstep : ∀ e ∈ (step s (.horizon n : Op ν K)).params, ∀ i, i < (step s (.horizon n : Op ν K)).values.length →
        look (step s (.horizon n : Op ν K)) i e.1 = some ((step s (.horizon n : Op ν K)).heap e.2) := by
      intro e he i hi
      have he : e ∈ s.params := by rw [hsy.2.1] at he; exact he
      rw [hsy.2.2.1 e he]
      rw [step_horizon hw] at hi ⊢
      split at hi
      · rw [if_pos ‹_›]
        exact hT e he i hi
      · rw [if_neg ‹_›]
        have hd := dget_of_mem hw.pnodup (show (e.1, e.2) ∈ s.params from he)
        have hlen := (copies_props hw (n.toNat - (s.values.length - 1))).2.1
        have hil : i < s.values.length + (n.toNat - (s.values.length - 1)) := by
          have : (horizonSt s n.toNat).values.length = _ := defaults_len s.params s.N n.toNat _
          rw [this, hlen] at hi
          exact hi
        have hpos := hw.len
        by_cases hin : i ≤ n.toNat
        · rw [horizon_look hw n.toNat i e.1 hin, hd, hT e he 0 (by omega)]
          split
          · rfl
          · split
            · exact hT e he i ‹_›
            · rfl
        · -- beyond the new horizon: an old stage
          have hil' : i < s.values.length := by omega
          show Option.map _ ((defaults s.params s.N n.toNat (appendCopies (n.toNat - (s.values.length - 1)) s).values)[i]?.bind (dget · e.1)) = _
          rw [defaults_get]
          simp only [if_neg (show ¬ (s.N ≤ i ∧ i < n.toNat) by omega), Option.map_id']
          have := (copies_props hw (n.toNat - (s.values.length - 1))).2.2.2.2.2.2.2 i e.1
          rw [if_pos hil', hT e he i hil'] at this
          exact this
    have := ih (step_wf hw _) hstep (fun o ho' => ho o (List.mem_cons_of_mem _ ho'))
    intro e he i hi
    have h2 := this e (by rw [hsy.2.1]; exact he) i hi
    rw [hsy.2.2.1 e he] at h2
    exact h2

/-! ### creation -/

/-- the symbols -/
def symsOf (heap : Nat → Val K) (params : List (ν × Nat)) : List (ν × Nat × Nat) :=
  params.map fun p => (p.1, (heap p.2).rows, (heap p.2).cols)

theorem foldl_syms (heap : Nat → Val K) (l : List (ν × Nat)) (d : List (ν × Nat × Nat)) :
    l.foldl (fun d p => dset d p.1 ((heap p.2).rows, (heap p.2).cols)) d = (symsOf heap l).foldl (fun d p => dset d p.1 p.2) d := by
  unfold symsOf
  induction l generalizing d with
  | nil => rfl
  | cons p l ih =>
    rw [List.foldl_cons, ih]
    rfl

/-- the state before the copies -/
def start (heap : Nat → Val K) (next : Nat) (params : List (ν × Nat)) : St ν K :=
  ⟨heap, next, params, [params], symsOf heap params, 0⟩

theorem init_eq (heap : Nat → Val K) (next : Nat) (params : List (ν × Nat)) (N : Nat) (hn : (params.map (·.1)).Nodup) :
    init heap next params N = { appendCopies N (start heap next params) with N := N } := by
  unfold init start
  have e1 := foldl_dset_new params [] (by simpa using hn)
  have e2 := foldl_dset_new (symsOf heap params) [] (by
    unfold symsOf
    rw [List.nil_append, List.map_map]
    exact hn)
  rw [foldl_syms, e1, e2, List.nil_append, List.nil_append]

theorem start_wf (heap : Nat → Val K) (next : Nat) (params : List (ν × Nat)) (hn : (params.map (·.1)).Nodup)
    (hr : ∀ e ∈ params, e.2 < next) : Wf (start heap next params) := by
  refine ⟨by show 0 < 1; omega, ?_, hr, hn⟩
  intro d hd e he
  have : d = params := by
    unfold start at hd
    simpa using hd
  rw [this] at he
  exact hr e he

theorem start_lay (heap : Nat → Val K) (next : Nat) (params : List (ν × Nat)) (hn : (params.map (·.1)).Nodup)
    (hs : ∀ e ∈ params, (heap e.2).vec.length = (heap e.2).rows * (heap e.2).cols) : Lay (start heap next params) := by
  have hk : (symsOf heap params).map (·.1) = params.map (·.1) := by
    unfold symsOf
    rw [List.map_map]
    rfl
  have hsz : ∀ e ∈ params, ∀ t ∈ symsOf heap params, t.1 = e.1 → (heap e.2).vec.length = t.2.1 * t.2.2 := by
    intro e he t ht hte
    obtain ⟨p, hp, rfl⟩ := List.mem_map.1 ht
    have h1 := dget_of_mem hn (show (p.1, p.2) ∈ params from hp)
    have h2 := dget_of_mem hn (show (e.1, e.2) ∈ params from he)
    dsimp only at hte ⊢
    rw [hte, h2] at h1
    rw [← Option.some.inj h1]
    exact hs e he
  refine ⟨by show ((symsOf heap params).map (·.1)).Nodup; rw [hk]; exact hn, ?_, ?_, ?_, hsz⟩
  · intro d hd
    have : d = params := by
      unfold start at hd
      simpa using hd
    rw [this]
    exact hk.symm
  · intro e he
    show e.1 ∈ (symsOf heap params).map (·.1)
    rw [hk]
    exact List.mem_map.2 ⟨e, he, rfl⟩
  · intro d hd e he
    have : d = params := by
      unfold start at hd
      simpa using hd
    rw [this] at he
    exact hsz e he

theorem init_props (heap : Nat → Val K) (next : Nat) (params : List (ν × Nat)) (N : Nat) (hn : (params.map (·.1)).Nodup)
    (hr : ∀ e ∈ params, e.2 < next) :
    Wf (init heap next params N) ∧ (init heap next params N).params = params ∧ (init heap next params N).syms = symsOf heap params
    ∧ (init heap next params N).N = N ∧ (init heap next params N).values.length = N + 1
    ∧ (∀ a, a < next → (init heap next params N).heap a = heap a)
    ∧ ((∀ e ∈ params, (heap e.2).vec.length = (heap e.2).rows * (heap e.2).cols) → Lay (init heap next params N))
    ∧ ∀ e ∈ params, ∀ i, i ≤ N → look (init heap next params N) i e.1 = some (heap e.2) := by
  have hw := start_wf heap next params hn hr
  obtain ⟨h1, h2, h3, h4, h5, h6, h7, h8⟩ := copies_props hw N
  rw [init_eq heap next params N hn]
  have hlen : (appendCopies N (start heap next params)).values.length = N + 1 := by
    rw [h2]
    show 1 + N = N + 1
    omega
  refine ⟨⟨by show N < (appendCopies N (start heap next params)).values.length; rw [hlen]; omega, h1.refs, h1.prefs, h1.pnodup⟩,
    h4, h5, rfl, hlen, h6, ?_, ?_⟩
  · intro hs
    have := h7 (start_lay heap next params hn hs)
    exact ⟨this.nodup, this.keys, this.pkeys, this.size, this.psize⟩
  · intro e he i hi
    have hl := h8 i e.1
    have h0 : look (start heap next params) 0 e.1 = some (heap e.2) := by
      show Option.map heap (dget params e.1) = _
      rw [dget_of_mem hn (show (e.1, e.2) ∈ params from he)]
      rfl
    show look (appendCopies N (start heap next params)) i e.1 = _
    rw [hl]
    by_cases hi0 : i < (start heap next params).values.length
    · rw [if_pos hi0]
      have : i = 0 := by
        have : (start heap next params).values.length = 1 := rfl
        omega
      rw [this]
      exact h0
    · rw [if_neg hi0, if_pos (by show i < 1 + N; omega)]
      exact h0

/-! ### vectors -/

theorem slice (heap : Nat → Val K) (d : List (ν × Nat)) (syms : List (ν × Nat × Nat)) (hk : d.map (·.1) = syms.map (·.1))
    (hn : (syms.map (·.1)).Nodup) (hs : ∀ e ∈ d, ∀ t ∈ syms, t.1 = e.1 → (heap e.2).vec.length = t.2.1 * t.2.2) :
    (d.map fun e => (heap e.2).vec).flatten.length = total syms
    ∧ ∀ t ∈ syms, ∃ r, dget d t.1 = some r
      ∧ (((d.map fun e => (heap e.2).vec).flatten.drop (offset t.1 syms)).take (t.2.1 * t.2.2)) = (heap r).vec := by
  induction d generalizing syms with
  | nil =>
    cases syms with
    | nil => exact ⟨rfl, fun t ht => absurd ht (by simp)⟩
    | cons t l => cases hk
  | cons e d ih =>
    cases syms with
    | nil => cases hk
    | cons u l =>
      rw [List.map_cons, List.map_cons] at hk
      obtain ⟨hk1, hk2⟩ := List.cons.inj hk
      rw [List.map_cons, List.nodup_cons] at hn
      have hu := hs e List.mem_cons_self u List.mem_cons_self hk1.symm
      obtain ⟨i1, i2⟩ := ih l hk2 hn.2 (fun x hx t ht => hs x (List.mem_cons_of_mem _ hx) t (List.mem_cons_of_mem _ ht))
      constructor
      · rw [List.map_cons, List.flatten_cons, List.length_append, i1, hu]
        rfl
      · intro t ht
        rcases List.mem_cons.1 ht with rfl | ht
        · refine ⟨e.2, by rw [dget_cons, if_pos hk1], ?_⟩
          rw [List.map_cons, List.flatten_cons]
          unfold offset
          rw [if_pos rfl, List.drop_zero, ← hu, List.take_left' rfl]
        · have hne : u.1 ≠ t.1 := by
            intro h
            apply hn.1
            rw [h]
            exact List.mem_map.2 ⟨t, ht, rfl⟩
          obtain ⟨r, h1, h2⟩ := i2 t ht
          refine ⟨r, by rw [dget_cons, if_neg (by rw [hk1]; exact hne)]; exact h1, ?_⟩
          rw [List.map_cons, List.flatten_cons]
          unfold offset
          rw [if_neg hne, ← hu, ← List.drop_drop, List.drop_left' rfl]
          exact h2

theorem mapM_some {α β : Type} (l : List α) (f : α → Option β) (g : α → β) (h : ∀ x ∈ l, f x = some (g x)) : l.mapM f = some (l.map g) := by
  induction l with
  | nil => rfl
  | cons x l ih =>
    rw [List.mapM_cons, h x List.mem_cons_self, ih (fun y hy => h y (List.mem_cons_of_mem _ hy))]
    rfl

theorem block (l : List (List K)) (T : Nat) (h : ∀ x ∈ l, x.length = T) :
    l.flatten.length = l.length * T ∧ ∀ (i : Nat) (x : List K), l[i]? = some x → (l.flatten.drop (i * T)).take T = x := by
  induction l with
  | nil => exact ⟨by simp, fun i x hx => by simp at hx⟩
  | cons y l ih =>
    obtain ⟨h1, h2⟩ := ih fun x hx => h x (List.mem_cons_of_mem _ hx)
    have hy := h y List.mem_cons_self
    constructor
    · rw [List.flatten_cons, List.length_append, h1, hy, List.length_cons, Nat.add_mul, Nat.one_mul, Nat.add_comm]
    · intro i x hx
      cases i with
      | zero =>
        cases hx
        rw [Nat.zero_mul, List.drop_zero, List.flatten_cons, ← hy, List.take_left' rfl]
      | succ i =>
        rw [List.flatten_cons, Nat.add_mul, Nat.one_mul, Nat.add_comm, ← List.drop_drop, List.drop_left' hy]
        exact h2 i x hx

theorem pValues_eq (s : St ν K) (i : Nat) (hi : i ≤ s.N) (hw : Wf s) :
    pValues s (i : Int) = some (((s.values.getD i []).map fun e => (s.heap e.2).vec).flatten) := by
  have hl := hw.len
  have hlt : i < s.values.length := by omega
  unfold pValues dictAt
  rw [if_neg (by omega), Int.toNat_natCast, List.getElem?_eq_getElem hlt, List.getD_eq_getElem?_getD, List.getElem?_eq_getElem hlt]
  rfl

/-! ### separate arrays -/

/-- no two entries share an array -/
def Sep (s : St ν K) : Prop := ∀ (i j : Nat) (m m' : ν) (r : Nat) (d d' : List (ν × Nat)),
  s.values[i]? = some d → s.values[j]? = some d' → dget d m = some r → dget d' m' = some r → i = j ∧ m = m'

theorem copy_sep {s : St ν K} (hw : Wf s) (h : Sep s) : Sep (appendCopy s) := by
  have hh := headD_mem s (wf_ne hw)
  -- an entry of the new state
  have ent : ∀ (i : Nat) (d : List (ν × Nat)) (m : ν) (r : Nat), (appendCopy s).values[i]? = some d → dget d m = some r →
      (s.values[i]? = some d ∧ r < s.next) ∨ (i = s.values.length ∧ ∃ r0, dget (s.values.headD []) m = some r0
        ∧ r = s.next + ((s.values.headD []).map (·.2)).idxOf r0) := by
    intro i d m r hd hr
    by_cases hi : i < s.values.length
    · left
      have e1 : (appendCopy s).values[i]? = s.values[i]? := List.getElem?_append_left hi
      rw [e1] at hd
      exact ⟨hd, hw.refs d (List.mem_of_getElem? hd) _ (dget_mem hr)⟩
    · right
      have hlt : i < (appendCopy s).values.length := by
        by_contra hc
        rw [List.getElem?_eq_none (by omega)] at hd
        cases hd
      rw [copy_len] at hlt
      have hie : i = s.values.length := by omega
      refine ⟨hie, ?_⟩
      have e1 : (appendCopy s).values[s.values.length]?
          = some ((s.values.headD []).map fun e => (e.1, s.next + ((s.values.headD []).map (·.2)).idxOf e.2)) := by
        unfold appendCopy
        simp
      rw [hie, e1] at hd
      rw [← Option.some.inj hd] at hr
      have := dget_map (s.values.headD []) (fun r => s.next + ((s.values.headD []).map (·.2)).idxOf r) m
      rw [this] at hr
      obtain ⟨r0, h1, h2⟩ := Option.map_eq_some_iff.1 hr
      exact ⟨r0, h1, h2.symm⟩
  intro i j m m' r d d' hd hd' hr hr'
  rcases ent i d m r hd hr with ⟨a1, a2⟩ | ⟨a1, r0, a2, a3⟩ <;> rcases ent j d' m' r hd' hr' with ⟨b1, b2⟩ | ⟨b1, r1, b2, b3⟩
  · exact h i j m m' r d d' a1 b1 hr hr'
  · omega
  · omega
  · refine ⟨by omega, ?_⟩
    have hidx : ((s.values.headD []).map (·.2)).idxOf r0 = ((s.values.headD []).map (·.2)).idxOf r1 := by omega
    have m0 : r0 ∈ (s.values.headD []).map (·.2) := List.mem_map.2 ⟨_, dget_mem a2, rfl⟩
    have m1 : r1 ∈ (s.values.headD []).map (·.2) := List.mem_map.2 ⟨_, dget_mem b2, rfl⟩
    have : r0 = r1 := (List.idxOf_inj m0).1 hidx
    subst this
    exact (h 0 0 m m' r0 _ _ hh.2 hh.2 a2 b2).2

theorem copies_sep {s : St ν K} (hw : Wf s) (h : Sep s) (k : Nat) : Sep (appendCopies k s) := by
  induction k generalizing s with
  | zero => exact h
  | succ k ih => exact ih (copy_wf hw) (copy_sep hw h)

theorem init_sep (heap : Nat → Val K) (next : Nat) (params : List (ν × Nat)) (N : Nat) (hn : (params.map (·.1)).Nodup)
    (hr : ∀ e ∈ params, e.2 < next) (hd : (params.map (·.2)).Nodup) : Sep (init heap next params N) := by
  rw [init_eq heap next params N hn]
  have hs : Sep (start heap next params) := by
    have one : ∀ (i : Nat) (d : List (ν × Nat)), (start heap next params).values[i]? = some d → i = 0 ∧ d = params := by
      intro i d h
      cases i with
      | zero => exact ⟨rfl, (Option.some.inj h).symm⟩
      | succ i => cases h
    intro i j m m' r d d' h1 h2 h3 h4
    obtain ⟨rfl, rfl⟩ := one i d h1
    obtain ⟨rfl, rfl⟩ := one j d' h2
    refine ⟨rfl, ?_⟩
    have a := dget_mem h3
    have b := dget_mem h4
    have := List.inj_on_of_nodup_map hd a b rfl
    exact congrArg Prod.fst this
  exact copies_sep (start_wf heap next params hn hr) hs N

end Acados.ParamManager
