import Verif.Model.CasadiNlp
import Mathlib.Algebra.Order.Group.Unbundled.Basic
import Mathlib.Data.List.Nodup
import Mathlib.Data.List.Sort
import Mathlib.Data.List.Range
import Mathlib.Algebra.BigOperators.Ring.Finset
import Mathlib.Tactic.Ring
import Mathlib.Tactic.Linarith

/-! Lemmas for C97. -/

namespace Acados.CasadiNlp

section At
variable {α β : Type*}

/-- The positions `idx` of `l` hold `vals`. -/
def At (l : List α) (idx : List ℕ) (vals : List α) : Prop :=
  idx.map (fun p => l[p]?) = vals.map some

theorem At.nil (l : List α) : At l [] [] := rfl

theorem At.append {l : List α} {idx vals} (h : At l idx vals) (t : List α) :
    At (l ++ t) idx vals := by
  unfold At at *
  rw [← h]
  apply List.map_congr_left
  intro p hp
  have : l[p]? ∈ vals.map some := by rw [← h]; exact List.mem_map_of_mem hp
  obtain ⟨a, _, ha⟩ := List.mem_map.1 this
  have hlt : p < l.length := by
    rcases Nat.lt_or_ge p l.length with h' | h'
    · exact h'
    · rw [List.getElem?_eq_none h'] at ha; cases ha
  rw [List.getElem?_append_left hlt]

theorem At.concat {l : List α} {i1 i2 v1 v2} (h1 : At l i1 v1) (h2 : At l i2 v2) :
    At l (i1 ++ i2) (v1 ++ v2) := by
  unfold At at *
  rw [List.map_append, List.map_append, h1, h2]

theorem At.length {l : List α} {idx vals} (h : At l idx vals) : idx.length = vals.length := by
  have := congrArg List.length h
  simpa using this

/-- New entries at the end, read through a map of indices. -/
theorem At.newMap (l : List α) (n m : ℕ) (c : ℕ → α) (idx : ℕ → ℕ)
    (h : ∀ k, k < m → idx k < n) :
    At (l ++ (List.range n).map c) ((List.range m).map (fun k => l.length + idx k))
      ((List.range m).map (fun k => c (idx k))) := by
  unfold At
  rw [List.map_map, List.map_map]
  apply List.map_congr_left
  intro k hk
  have hk := h k (List.mem_range.1 hk)
  show (l ++ (List.range n).map c)[l.length + idx k]? = some (c (idx k))
  rw [List.getElem?_append_right (by omega)]
  simp [hk]

theorem At.new (l : List α) (n : ℕ) (c : ℕ → α) :
    At (l ++ (List.range n).map c) (block l.length n) ((List.range n).map c) :=
  At.newMap l n n c (fun j => j) (fun _ h => h)

theorem At.single (l : List α) (c : α) : At (l ++ [c]) [l.length] [c] := by
  simp [At]

/-- An index map of `n` stages. -/
def Maps (l : List α) (m : List (List ℕ)) (n : ℕ) (vals : ℕ → List α) : Prop :=
  m.length = n ∧ ∀ i, i < n → ∃ idx, m[i]? = some idx ∧ At l idx (vals i)

theorem Maps.append {l : List α} {m n vals} (h : Maps l m n vals) (t : List α) :
    Maps (l ++ t) m n vals :=
  ⟨h.1, fun i hi => by
    obtain ⟨idx, h1, h2⟩ := h.2 i hi
    exact ⟨idx, h1, h2.append t⟩⟩

theorem Maps.push {l : List α} {m n vals} (h : Maps l m n vals) {idx} (h' : At l idx (vals n)) :
    Maps l (m ++ [idx]) (n + 1) vals := by
  refine ⟨by simp [h.1], fun i hi => ?_⟩
  rcases Nat.lt_succ_iff_lt_or_eq.1 hi with hi | rfl
  · obtain ⟨idx, h1, h2⟩ := h.2 i hi
    refine ⟨idx, ?_, h2⟩
    rw [List.getElem?_append_left (by rw [h.1]; exact hi), h1]
  · refine ⟨idx, ?_, h'⟩
    rw [← h.1]
    simp

theorem Maps.zero (l : List α) (vals : ℕ → List α) : Maps l [] 0 vals :=
  ⟨rfl, fun _ h => absurd h (Nat.not_lt_zero _)⟩

/-! ### Reading and writing -/

theorem pick_at {a : List α} : ∀ {idx vals}, At a idx vals → pick a idx = some vals
  | [], [], _ => rfl
  | [], _ :: _, h => by simp [At] at h
  | _ :: _, [], h => by simp [At] at h
  | p :: ps, y :: ys, h => by
    simp only [At, List.map_cons, List.cons.injEq] at h
    have := pick_at (a := a) (idx := ps) (vals := ys) h.2
    simp [pick, h.1, this]

theorem At.map {l : List α} {idx vals} (h : At l idx vals) (f : α → β) :
    At (l.map f) idx (vals.map f) := by
  unfold At at *
  have : idx.map (fun p => (l.map f)[p]?) = (idx.map (fun p => l[p]?)).map (Option.map f) := by
    rw [List.map_map]
    apply List.map_congr_left
    intro p _
    simp
  rw [this, h, List.map_map, List.map_map]
  rfl

theorem write_at [DecidableEq α] {l : List α} (hl : l.Nodup) (f : α → β) :
    ∀ (idx : List ℕ) (ss : List α) (ν : α → β), At l idx ss →
      write (l.map ν) idx (ss.map f) = some (l.map (fun s => if s ∈ ss then f s else ν s))
  | [], [], ν, _ => by simp [write]
  | [], _ :: _, _, h => by simp [At] at h
  | _ :: _, [], _, h => by simp [At] at h
  | p :: ps, s :: ss, ν, h => by
    simp only [At, List.map_cons, List.cons.injEq] at h
    have hp : p < l.length := by
      rcases Nat.lt_or_ge p l.length with h' | h'
      · exact h'
      · rw [List.getElem?_eq_none h'] at h; cases h.1
    have hset : (l.map ν).set p (f s) = l.map (fun t => if t = s then f s else ν t) := by
      apply List.ext_getElem?
      intro q
      rw [List.getElem?_set]
      by_cases hq : p = q
      · subst hq
        simp only [List.length_map, hp, if_true, List.getElem?_map, h.1, Option.map_some]
      · rw [if_neg hq]
        simp only [List.getElem?_map]
        cases hx : l[q]? with
        | none => rfl
        | some t =>
          have : t ≠ s := by
            rintro rfl
            have hq' : q < l.length := by
              rcases Nat.lt_or_ge q l.length with h' | h'
              · exact h'
              · rw [List.getElem?_eq_none h'] at hx; cases hx
            exact hq ((hl.getElem_inj_iff (hi := hp) (hj := hq')).1 (by
              have h1 := h.1
              rw [List.getElem?_eq_getElem hp] at h1
              rw [List.getElem?_eq_getElem hq'] at hx
              rw [Option.some.inj h1, Option.some.inj hx]))
          simp [this]
    rw [List.map_cons]
    simp only [write, List.length_map, hp, if_true]
    rw [hset, write_at hl f ps ss _ h.2]
    congr 1
    apply List.map_congr_left
    intro t _
    by_cases h1 : t ∈ ss
    · simp [h1]
    · by_cases h2 : t = s
      · subst h2; simp
      · simp [h1, h2]

theorem assign_eq (a : List β) (idx : List ℕ) (vals : List β) (h : idx.length = vals.length) :
    assign a idx vals = write a idx vals := by
  unfold assign
  split
  · rename_i y
    simp only [List.length_cons, List.length_nil, zero_add] at h
    rw [h]; rfl
  · rfl

theorem assign_at [DecidableEq α] {l : List α} (hl : l.Nodup) (f ν : α → β) {idx ss}
    (h : At l idx ss) :
    assign (l.map ν) idx (ss.map f) = some (l.map (fun s => if s ∈ ss then f s else ν s)) := by
  rw [assign_eq _ _ _ (by rw [h.length, List.length_map]), write_at hl f idx ss ν h]

theorem assignAt_at [DecidableEq α] {l : List α} (hl : l.Nodup) (f ν : α → β) {m n vals}
    (h : Maps l m n vals) {i : ℕ} (hi : i < n) :
    assignAt (l.map ν) m i ((vals i).map f) =
      some (l.map (fun s => if s ∈ vals i then f s else ν s)) := by
  obtain ⟨idx, h1, h2⟩ := h.2 i hi
  simp only [assignAt, h1, Option.bind_some]
  exact assign_at hl f ν h2

theorem pickAt_at {l : List α} (ν : α → β) {m n vals} (h : Maps l m n vals) {i : ℕ} (hi : i < n) :
    (m[i]?).bind (pick (l.map ν)) = some ((vals i).map ν) := by
  obtain ⟨idx, h1, h2⟩ := h.2 i hi
  simp only [h1, Option.bind_some]
  exact pick_at (h2.map ν)

end At

/-! ### Sorting -/

section Sorting
variable {α β : Type*}

theorem argsort_perm (keys : List ℕ) : (argsort keys).Perm (List.range keys.length) :=
  List.mergeSort_perm _ _

theorem argsort_sorted (keys : List ℕ) :
    (argsort keys).Pairwise (fun a b => keys.getD a 0 ≤ keys.getD b 0) := by
  have h := List.pairwise_mergeSort (le := fun a b => decide (keys.getD a 0 ≤ keys.getD b 0))
    (fun a b c h1 h2 => by
      simp only [decide_eq_true_eq] at *; exact le_trans h1 h2)
    (fun a b => by
      simp only [Bool.or_eq_true, decide_eq_true_eq]; exact le_total _ _) (List.range keys.length)
  refine h.imp ?_
  intro a b hab
  simpa using hab

/-- Keys in ascending order: the sorting permutation lists the elements in that order. -/
theorem argsort_at (cs rs : List α) (pos : α → ℕ) (hp : rs.Perm cs)
    (hs : (rs.map pos).Pairwise (· < ·)) : At cs (argsort (cs.map pos)) rs := by
  set σ := argsort (cs.map pos) with hσ
  have hperm : σ.Perm (List.range cs.length) := by
    have := argsort_perm (cs.map pos)
    rwa [List.length_map] at this
  have hlt : ∀ a ∈ σ, a < cs.length := fun a ha => List.mem_range.1 (hperm.mem_iff.1 ha)
  -- the elements in sorted order
  obtain ⟨ds, hds⟩ : ∃ ds : List α, At cs σ ds := by
    clear_value σ
    clear hperm hσ
    induction σ with
    | nil => exact ⟨[], rfl⟩
    | cons a t ih =>
      obtain ⟨ds, h⟩ := ih (fun b hb => hlt b (List.mem_cons_of_mem _ hb))
      have ha := hlt a (List.mem_cons_self)
      refine ⟨cs[a] :: ds, ?_⟩
      simp only [At, List.map_cons, List.cons.injEq]
      exact ⟨by simp [ha], h⟩
  have hdp : ds.Perm cs := by
    have h1 : (σ.map (fun p => cs[p]?)).Perm ((List.range cs.length).map (fun p => cs[p]?)) :=
      hperm.map _
    have h2 : (List.range cs.length).map (fun p => cs[p]?) = cs.map some := by
      apply List.ext_getElem?
      intro q
      by_cases hq : q < cs.length
      · simp [hq]
      · rw [List.getElem?_eq_none (by simpa using hq), List.getElem?_eq_none (by simpa using hq)]
    rw [hds, h2] at h1
    exact (List.map_perm_map_iff (Option.some_injective _)).1 h1
  have hkeys : σ.map (fun a => (cs.map pos).getD a 0) = ds.map pos := by
    have h3 := hds.map pos
    unfold At at h3
    have : (σ.map (fun p => (cs.map pos)[p]?)).map (fun o => o.getD 0) =
        ((ds.map pos).map some).map (fun o => o.getD 0) := by rw [h3]
    rw [List.map_map, List.map_map] at this
    simpa [Function.comp_def, List.getD_eq_getElem?_getD] using this
  have hsort : (ds.map pos).Pairwise (· ≤ ·) := by
    rw [← hkeys, List.pairwise_map]
    exact argsort_sorted _
  have heq : ds.map pos = rs.map pos := by
    refine List.Perm.eq_of_pairwise (le := (· ≤ ·)) ?_ hsort
      (hs.imp (fun h => le_of_lt h)) ((hdp.trans hp.symm).map pos)
    intro a b _ _ h1 h2
    exact le_antisymm h1 h2
  have hinj : ∀ a ∈ rs, ∀ b ∈ rs, pos a = pos b → a = b := by
    have hnd : (rs.map pos).Nodup := hs.imp (fun h => Nat.ne_of_lt h)
    intro a ha b hb hab
    exact List.inj_on_of_nodup_map hnd ha hb hab
  have : ds = rs := by
    have hmem : ∀ a ∈ ds, a ∈ rs := fun a ha => hp.symm.mem_iff.1 (hdp.mem_iff.1 ha)
    clear hds hdp hkeys hsort hperm hlt
    have hgen : ∀ (ds rs' : List α), (∀ a ∈ ds, a ∈ rs) → (∀ a ∈ rs', a ∈ rs) →
        ds.map pos = rs'.map pos → ds = rs' := by
      intro ds
      induction ds with
      | nil => intro rs' _ _ h; cases rs' with
        | nil => rfl
        | cons => simp at h
      | cons a t ih =>
        intro rs' h1 h2 h
        cases rs' with
        | nil => simp at h
        | cons b t' =>
          simp only [List.map_cons, List.cons.injEq] at h
          rw [hinj a (h1 a (by simp)) b (h2 b (by simp)) h.1,
            ih t' (fun c hc => h1 c (by simp [hc])) (fun c hc => h2 c (by simp [hc])) h.2]
    exact hgen ds rs hmem (fun _ h => h) heq
  rwa [this] at hds

/-- Ranks undo the sorting. -/
theorem argsort_inv (cs rs : List α) (pos : α → ℕ) (hp : rs.Perm cs)
    (hs : (rs.map pos).Pairwise (· < ·)) : At rs (argsort (argsort (cs.map pos))) cs := by
  set σ := argsort (cs.map pos) with hσ
  have hperm : σ.Perm (List.range cs.length) := by
    have := argsort_perm (cs.map pos)
    rwa [List.length_map] at this
  have h1 : At cs σ rs := argsort_at cs rs pos hp hs
  have h2 : At σ (argsort σ) (List.range cs.length) := by
    have := argsort_at σ (List.range cs.length) (fun a => a) hperm.symm (by
      rw [List.map_id']; exact List.pairwise_lt_range)
    rwa [List.map_id'] at this
  -- rs[τ k] = cs[σ[τ k]] = cs[k]
  unfold At
  have h3 := h2
  unfold At at h3
  have hrs : ∀ (q a : ℕ), σ[q]? = some a → rs[q]? = cs[a]? := by
    intro q a hq
    have h4 := congrArg (fun l => l[q]?) h1
    simp only [List.getElem?_map, hq, Option.map_some] at h4
    cases hr : rs[q]? with
    | none => rw [hr] at h4; simp at h4
    | some r => rw [hr] at h4; simp only [Option.map_some, Option.some.injEq] at h4; rw [h4]
  have : (argsort σ).map (fun p => rs[p]?) = (List.range cs.length).map (fun p => cs[p]?) := by
    apply List.ext_getElem?
    intro k
    have h5 := congrArg (fun l => l[k]?) h3
    simp only [List.getElem?_map] at h5 ⊢
    cases hτ : (argsort σ)[k]? with
    | none => rw [hτ] at h5; cases hk : (List.range cs.length)[k]? with
      | none => rfl
      | some _ => rw [hk] at h5; simp at h5
    | some q =>
      rw [hτ] at h5
      cases hk : (List.range cs.length)[k]? with
      | none => rw [hk] at h5; simp at h5
      | some a =>
        rw [hk] at h5
        simp only [Option.map_some, Option.some.injEq] at h5 ⊢
        exact hrs q a h5
  rw [this]
  apply List.ext_getElem?
  intro q
  by_cases hq : q < cs.length
  · simp [hq]
  · rw [List.getElem?_eq_none (by simpa using hq), List.getElem?_eq_none (by simpa using hq)]

theorem pairwise_idxOf [DecidableEq α] {l : List α} (hl : l.Nodup) :
    l.Pairwise (fun a b => l.idxOf a < l.idxOf b) := by
  rw [List.pairwise_iff_getElem]
  intro i j hi hj hij
  rw [hl.idxOf_getElem, hl.idxOf_getElem]
  exact hij

theorem sublist_idxOf [DecidableEq α] {l r : List α} (hl : l.Nodup) (h : r.Sublist l) :
    (r.map l.idxOf).Pairwise (· < ·) := by
  rw [List.pairwise_map]
  exact (pairwise_idxOf hl).sublist h

theorem At.eq_idxOf [DecidableEq α] {l : List α} (hl : l.Nodup) {idx vals} (h : At l idx vals) :
    idx = vals.map l.idxOf := by
  induction idx generalizing vals with
  | nil => cases vals with
    | nil => rfl
    | cons => simp [At] at h
  | cons p ps ih => cases vals with
    | nil => simp [At] at h
    | cons y ys =>
      simp only [At, List.map_cons, List.cons.injEq] at h
      rw [List.map_cons, ← ih h.2]
      congr 1
      have hp : p < l.length := by
        rcases Nat.lt_or_ge p l.length with h' | h'
        · exact h'
        · rw [List.getElem?_eq_none h'] at h; cases h.1
      have h1 := h.1
      rw [List.getElem?_eq_getElem hp, Option.some.injEq] at h1
      rw [← h1, hl.idxOf_getElem]

end Sorting

end Acados.CasadiNlp
