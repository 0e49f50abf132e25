import Verif.Model.QpLicq
import Verif.Lemmas.Regularity
import Mathlib.Data.List.Nodup
import Mathlib.Tactic.Ring
import Mathlib.Tactic.Linarith

/-! Helper lemmas for `check_licq` (C105). -/

namespace Acados.QpLicq

section
variable {K : Type*} [Field K]

/-- Full row rank is linear independence of the rows. -/
theorem rank_iff {α : Type*} (f : α → ℕ → K) (rows : List α) (n : ℕ) :
    (Matrix.of fun (a : Fin rows.length) (b : Fin n) => f rows[a] b).rank = rows.length ↔
      ∀ y : Fin rows.length → K, (∀ q < n, ∑ a, y a * f rows[a] q = 0) → ∀ a, y a = 0 := by
  set M : Matrix (Fin rows.length) (Fin n) K := Matrix.of fun a b => f rows[a] b with hM
  have h1 : M.rank = rows.length ↔ LinearIndependent K M.row := by
    rw [linearIndependent_iff_card_eq_finrank_span, Matrix.rank_eq_finrank_span_row,
      Fintype.card_fin, Set.finrank, eq_comm]
  rw [h1, Fintype.linearIndependent_iff]
  have key : ∀ y : Fin rows.length → K, (∑ a, y a • M.row a = 0) ↔
      ∀ q < n, ∑ a, y a * f rows[a] q = 0 := by
    intro y
    constructor
    · intro h q hq
      have := congrFun h ⟨q, hq⟩
      simpa [hM, Finset.sum_apply] using this
    · intro h
      funext b
      have := h b b.2
      simpa [hM, Finset.sum_apply] using this
  exact forall_congr' fun y => by rw [key]

/-- Coefficients by row instead of by position. -/
theorem rank_coef {α : Type*} [DecidableEq α] (f : α → ℕ → K) (rows : List α) (n : ℕ)
    (hn : rows.Nodup) :
    (Matrix.of fun (a : Fin rows.length) (b : Fin n) => f rows[a] b).rank = rows.length ↔
      ∀ c : α → K, (∀ q < n, (rows.map fun r => c r * f r q).sum = 0) → ∀ r ∈ rows, c r = 0 := by
  rw [rank_iff]
  constructor
  · intro h c hc r hr
    obtain ⟨a, ha, rfl⟩ := List.getElem_of_mem hr
    refine h (fun a => c rows[a]) (fun q hq => ?_) ⟨a, ha⟩
    rw [← hc q hq]
    exact Regularity.sum_rows rows (fun r => c r * f r q)
  · intro h y hy a
    let c : α → K := fun r => if hr : r ∈ rows then y ⟨rows.idxOf r, List.idxOf_lt_length_of_mem hr⟩ else 0
    have hc : ∀ a : Fin rows.length, c rows[a] = y a := by
      intro a
      have hm : rows[a] ∈ rows := List.getElem_mem _
      simp only [c, dif_pos hm]
      congr 1
      ext
      exact hn.idxOf_getElem a.1 a.2
    rw [← hc a]
    refine h c (fun q hq => ?_) _ (List.getElem_mem _)
    rw [← Regularity.sum_rows rows (fun r => c r * f r q), ← hy q hq]
    exact Finset.sum_congr rfl fun b _ => by rw [hc b]

theorem sum_flatMap {α β : Type*} (l : List α) (f : α → List β) (g : β → K) :
    ((l.flatMap f).map g).sum = (l.map fun a => ((f a).map g).sum).sum := by
  induction l with
  | nil => rfl
  | cons a l ih => simp [ih]

theorem sum_eq {α : Type*} (l : List α) (f g : α → K) (h : ∀ a ∈ l, f a = g a) :
    (l.map f).sum = (l.map g).sum := by
  rw [List.map_congr_left h]

theorem sum_zero {α : Type*} (l : List α) (f : α → K) (h : ∀ a ∈ l, f a = 0) :
    (l.map f).sum = 0 := by
  rw [List.map_congr_left h]
  simp

end

section
variable {K : Type*} [Field K] [LinearOrder K]

omit [Field K] [LinearOrder K] in
theorem cons_nodup (s : St K) : s.cons.Nodup := by
  unfold St.cons
  refine List.nodup_append'.2 ⟨List.nodup_append'.2 ⟨?_, ?_, ?_⟩, ?_, ?_⟩
  · exact List.nodup_range.map (fun _ _ h => by cases h; rfl)
  · exact List.nodup_range.map (fun _ _ h => by cases h; rfl)
  · rintro a h1 h2
    obtain ⟨i, -, rfl⟩ := List.mem_map.1 h1
    obtain ⟨j, -, h⟩ := List.mem_map.1 h2
    cases h
  · exact List.nodup_range.map (fun _ _ h => by cases h; rfl)
  · rintro a h1 h2
    obtain ⟨i, -, rfl⟩ := List.mem_map.1 h2
    rcases List.mem_append.1 h1 with h | h <;> obtain ⟨j, -, h⟩ := List.mem_map.1 h <;> cases h

theorem active_mem {s : St K} {p : P} {r : Row} (h : r ∈ s.active p) : ∃ b, r = .path b p := by
  unfold St.active at h
  split at h
  · exact ⟨_, List.mem_singleton.1 h⟩
  · split at h
    · exact ⟨_, List.mem_singleton.1 h⟩
    · cases h

theorem rows_nodup (s : St K) : s.rows.Nodup := by
  unfold St.rows
  refine List.nodup_append'.2 ⟨List.nodup_range.map (fun _ _ h => by cases h; rfl), ?_, ?_⟩
  · refine List.nodup_flatMap.2 ⟨fun p _ => ?_, ?_⟩
    · unfold St.active
      split
      · simp
      · split <;> simp
    · refine (cons_nodup s).imp fun {a b} hab => ?_
      intro r h1 h2
      obtain ⟨_, rfl⟩ := active_mem h1
      obtain ⟨_, h⟩ := active_mem h2
      cases h
      exact hab rfl
  · rintro r h1 h2
    obtain ⟨i, -, rfl⟩ := List.mem_map.1 h1
    obtain ⟨p, -, h⟩ := List.mem_flatMap.1 h2
    obtain ⟨_, h⟩ := active_mem h
    cases h

omit [Field K] [LinearOrder K] in
/-- Members of the list of constraints. -/
theorem mem_cons {s : St K} {p : P} : p ∈ s.cons ↔
    (∃ j < s.nbx, p = .bx j) ∨ (∃ j < s.nbu, p = .bu j) ∨ ∃ j < s.ng, p = .g j := by
  simp only [St.cons, List.mem_append, List.mem_map, List.mem_range, or_assoc]
  constructor
  · rintro (⟨j, h, rfl⟩ | ⟨j, h, rfl⟩ | ⟨j, h, rfl⟩)
    · exact Or.inl ⟨j, h, rfl⟩
    · exact Or.inr (Or.inl ⟨j, h, rfl⟩)
    · exact Or.inr (Or.inr ⟨j, h, rfl⟩)
  · rintro (⟨j, h, rfl⟩ | ⟨j, h, rfl⟩ | ⟨j, h, rfl⟩)
    · exact Or.inl ⟨j, h, rfl⟩
    · exact Or.inr (Or.inl ⟨j, h, rfl⟩)
    · exact Or.inr (Or.inr ⟨j, h, rfl⟩)

/-- For plain stages values are those documented. -/
theorem val_eq {s : St K} (h : s.Plain) {p : P} (hp : p ∈ s.cons) : s.val p = s.value p := by
  obtain ⟨-, hu, hi, hb⟩ := h
  rcases mem_cons.1 hp with ⟨j, hj, rfl⟩ | ⟨j, hj, rfl⟩ | ⟨j, hj, rfl⟩
  · rcases hb with hb | ⟨hb, -⟩
    · omega
    · have h0 : s.nbu = 0 := by omega
      simp [St.val, St.value, hb, h0]
  · simp [St.val, St.value, hi j hj]
  · rfl

/-- For plain stages gradients are those documented, for the variables of the stage. -/
theorem grad_eq {s : St K} (h : s.Plain) {p : P} (hp : p ∈ s.cons) {q : ℕ}
    (hq : q < s.nx + s.nu) : s.gradv p q = s.grad p q := by
  obtain ⟨-, hu, hi, hb⟩ := h
  rcases mem_cons.1 hp with ⟨j, hj, rfl⟩ | ⟨j, hj, rfl⟩ | ⟨j, hj, rfl⟩
  · rcases hb with hb | ⟨hb, -⟩
    · omega
    · have h0 : s.nbu = 0 := by omega
      simp [St.gradv, St.grad, hb, h0]
  · simp [St.gradv, St.grad, hi j hj]
  · simp [St.gradv, St.grad, hq]

/-- Gradients do not depend on the next state. -/
theorem grad_next {s : St K} (h : s.Plain) {p : P} (hp : p ∈ s.cons) {q : ℕ}
    (hq : s.nx + s.nu ≤ q) : s.gradv p q = 0 := by
  obtain ⟨-, hu, hi, hb⟩ := h
  rcases mem_cons.1 hp with ⟨j, hj, rfl⟩ | ⟨j, hj, rfl⟩ | ⟨j, hj, rfl⟩
  · rcases hb with hb | ⟨-, hb⟩
    · omega
    · have := hb j hj
      simp only [St.gradv]
      rw [if_neg (by omega)]
  · simp only [St.gradv]
    rw [if_neg (by omega)]
  · simp only [St.gradv]
    rw [if_neg (by omega), if_neg (by omega)]

omit [LinearOrder K] in
theorem sum_range_aux (n r : ℕ) (c : ℕ → K) :
    ((List.range n).map fun i => c i * (if r = i then (-1 : K) else 0)).sum
      = if r < n then -c r else 0 := by
  induction n with
  | zero => simp
  | succ n ih =>
    rw [List.range_succ, List.map_append, List.sum_append, ih]
    simp only [List.map_cons, List.map_nil, List.sum_cons, List.sum_nil, add_zero]
    rcases Nat.lt_trichotomy r n with h | h | h
    · rw [if_pos h, if_neg (by omega), if_pos (by omega)]
      ring
    · subst h
      rw [if_neg (by omega), if_pos rfl, if_pos (by omega)]
      ring
    · rw [if_neg (by omega), if_neg (by omega), if_neg (by omega)]
      ring

omit [LinearOrder K] in
theorem sum_range_ite (n r : ℕ) (hr : r < n) (c : ℕ → K) :
    ((List.range n).map fun i => c i * (if r = i then (-1 : K) else 0)).sum = -c r := by
  rw [sum_range_aux, if_pos hr]

/-- The coefficient of a constraint from those of its rows. -/
noncomputable def coef (s : St K) (c : Row → K) (p : P) : K :=
  ((s.active p).map fun r => match r with
    | .path true _ => -c r
    | _ => c r).sum

theorem coef_mul (s : St K) (c : Row → K) (p : P) (q : ℕ) :
    ((s.active p).map fun r => c r * s.entry r q).sum = coef s c p * s.gradv p q := by
  unfold coef St.active
  split
  · simp [St.entry]
  · split
    · simp [St.entry]
    · simp

theorem coef_zero {s : St K} {c : Row → K} {p : P} (h : coef s c p = 0) {r : Row}
    (hr : r ∈ s.active p) : c r = 0 := by
  unfold coef St.active at h
  unfold St.active at hr
  split at hr
  · rename_i h1
    simp only [if_pos h1] at h
    obtain rfl := List.mem_singleton.1 hr
    simpa using h
  · rename_i h1
    simp only [if_neg h1] at h
    split at hr
    · rename_i h2
      simp only [if_pos h2] at h
      obtain rfl := List.mem_singleton.1 hr
      simpa using h
    · cases hr

/-- Coefficients of the rows from those of the constraints. -/
def rowc (μ : P → K) : Row → K
  | .dyn _ => 0
  | .path b p => if b then -μ p else μ p

theorem coef_rowc (s : St K) (μ : P → K) (p : P) (h : near (s.val p) (s.lo p) ∨ near (s.val p) (s.up p)) :
    coef s (rowc μ) p = μ p := by
  unfold coef St.active
  by_cases h1 : near (s.val p) (s.lo p)
  · simp [if_pos h1, rowc]
  · have h2 := h.resolve_left h1
    simp [if_neg h1, if_pos h2, rowc]

/-- The check of a stage: the active constraints of the stage, without the dynamics. -/
theorem check_indep {s : St K} (h : s.Plain) :
    s.mat.rank = s.rows.length ↔ s.Indep := by
  unfold St.mat
  rw [rank_coef s.entry s.rows _ (rows_nodup s)]
  have hsum : ∀ (c : Row → K) (q : ℕ), (s.rows.map fun r => c r * s.entry r q).sum
      = ((List.range s.nx).map fun r => c (.dyn r) * s.entry (.dyn r) q).sum
        + (s.cons.map fun p => coef s c p * s.gradv p q).sum := by
    intro c q
    rw [St.rows, List.map_append, List.sum_append, sum_flatMap, List.map_map]
    congr 1
    exact sum_eq _ _ _ fun p _ => coef_mul s c p q
  constructor
  · intro hr μ hs hq p
    by_contra hne
    obtain ⟨hp, ha⟩ := hs p hne
    have hz := hr (rowc μ) (fun q _ => by
      rw [hsum, sum_zero _ _ (fun r _ => by simp [rowc]), zero_add]
      have hcg : ∀ p ∈ s.cons, coef s (rowc μ) p * s.gradv p q = μ p * s.gradv p q := by
        intro p hp
        by_cases hm : μ p = 0
        · have : coef s (rowc μ) p = 0 := by
            unfold coef St.active
            split
            · simp [rowc, hm]
            · split <;> simp [rowc, hm]
          rw [this, hm]
        · rw [coef_rowc s μ p (by rw [val_eq h hp]; exact (hs p hm).2)]
      rw [sum_eq _ _ _ hcg]
      rcases Nat.lt_or_ge q (s.nx + s.nu) with hlt | hge
      · rw [← hq q hlt]
        exact sum_eq _ _ _ fun p hp => by rw [grad_eq h hp hlt]
      · exact sum_zero _ _ fun p hp => by rw [grad_next h hp hge, mul_zero])
    apply hne
    rw [← coef_rowc s μ p (by rw [val_eq h hp]; exact ha)]
    unfold coef
    refine sum_zero _ _ fun r hr' => ?_
    have h0 : rowc μ r = 0 := hz r (by
      unfold St.rows
      exact List.mem_append_right _ (List.mem_flatMap.2 ⟨p, hp, hr'⟩))
    split <;> simp [h0]
  · intro hi c hc
    have hdyn : ∀ r < s.nx, c (.dyn r) = 0 := by
      intro r hr
      have h1 := hc (s.nx + s.nu + r) (by omega)
      rw [hsum, sum_zero s.cons _ (fun p hp => by rw [grad_next h hp (by omega), mul_zero]),
        add_zero] at h1
      have h2 : ∀ i ∈ List.range s.nx, c (.dyn i) * s.entry (.dyn i) (s.nx + s.nu + r)
          = c (.dyn i) * (if r = i then (-1 : K) else 0) := by
        intro i _
        simp only [St.entry]
        rw [if_neg (by omega), if_neg (by omega), Nat.add_sub_cancel_left]
      rw [sum_eq _ _ _ h2, sum_range_ite s.nx r hr (fun i => c (.dyn i))] at h1
      exact neg_eq_zero.1 h1
    have hμ := hi (fun p => if p ∈ s.cons then coef s c p else 0) (fun p hp => by
        have hm : p ∈ s.cons := by
          by_contra hn
          simp [hn] at hp
        refine ⟨hm, ?_⟩
        simp only [if_pos hm] at hp
        by_contra hn
        apply hp
        unfold St.Active at hn
        rw [← val_eq h hm, not_or] at hn
        simp [coef, St.active, hn.1, hn.2])
      (fun q hq => by
        have h1 := hc q (by omega)
        rw [hsum, sum_zero (List.range s.nx) _ (fun r hr => by
          rw [hdyn r (List.mem_range.1 hr), zero_mul]), zero_add] at h1
        refine Eq.trans ?_ h1
        unfold St.comb
        exact sum_eq _ _ _ fun p hp => by
          simp only [if_pos hp]
          rw [grad_eq h hp hq])
    intro r hr
    unfold St.rows at hr
    rcases List.mem_append.1 hr with hr | hr
    · obtain ⟨i, hi', rfl⟩ := List.mem_map.1 hr
      exact hdyn i (List.mem_range.1 hi')
    · obtain ⟨p, hp, hr⟩ := List.mem_flatMap.1 hr
      have := hμ p
      simp only [if_pos hp] at this
      exact coef_zero this hr

omit [Field K] [LinearOrder K] in
theorem plain_ok {s : St K} (h : s.Plain) : s.ok = true := by
  obtain ⟨h1, h2, h3, h4⟩ := h
  simp only [St.ok, Bool.and_eq_true, beq_iff_eq, List.all_eq_true, List.mem_range,
    decide_eq_true_eq]
  refine ⟨⟨h1, fun j hj => ?_⟩, h2⟩
  rcases h4 with h4 | ⟨-, h4⟩
  · omega
  · exact h4 j hj

open Classical in
theorem check_plain {s : St K} (h : s.Plain) : s.check = some (decide s.Indep) := by
  unfold St.check
  rw [if_pos (plain_ok h)]
  have hle : s.mat.rank ≤ s.rows.length := by
    have := s.mat.rank_le_card_height
    simpa using this
  congr 1
  rw [decide_eq_decide, ← check_indep h]
  omega

theorem loop_false {f : ℕ → Option Bool} {l : List ℕ} (h : Regularity.loop f l = some false) :
    ∃ k ∈ l, f k = some false := by
  induction l with
  | nil => cases h
  | cons k ks ih =>
    unfold Regularity.loop at h
    rcases hk : f k with _ | b
    · rw [hk] at h; cases h
    · rw [hk] at h
      cases b
      · exact ⟨k, by simp, hk⟩
      · obtain ⟨j, hj, hf⟩ := ih (by simpa using h)
        exact ⟨j, by simp [hj], hf⟩

end

end Acados.QpLicq
