import Verif.Model.Regularity
import Mathlib.Algebra.Order.Field.Basic
import Mathlib.Tactic.Linarith
import Mathlib.Tactic.Ring
import Mathlib.Algebra.BigOperators.Fin

/-! Helper lemmas for C104. -/

namespace Acados.Regularity

section
variable {K : Type*} [Field K] [LinearOrder K] [IsStrictOrderedRing K]

omit [Field K] [IsStrictOrderedRing K] in
theorem eqB_iff (c : Con K) : c.eqB = true ↔ c.IsEq := by
  unfold Con.eqB Con.IsEq
  rcases c with ⟨lb, ub, v, lam, g⟩
  rcases lb with _ | a <;> rcases ub with _ | b <;> simp [eq_comm]

omit [IsStrictOrderedRing K] in
theorem below_iff (t : K) (c : Con K) :
    c.below t = true ↔ ∃ a, c.lb = some a ∧ c.val - a < t := by
  unfold Con.below
  rcases c with ⟨lb, ub, v, lam, g⟩
  rcases lb with _ | a <;> simp

omit [IsStrictOrderedRing K] in
theorem above_iff (t : K) (c : Con K) :
    c.above t = true ↔ ∃ b, c.ub = some b ∧ b - c.val < t := by
  unfold Con.above
  rcases c with ⟨lb, ub, v, lam, g⟩
  rcases ub with _ | b <;> simp

omit [Field K] [LinearOrder K] [IsStrictOrderedRing K] in
theorem at'_iff (l : List (Con K)) (f : Con K → Bool) (i : ℕ) :
    at' l f i = true ↔ ∃ c, l[i]? = some c ∧ f c = true := by
  simp [at', Option.any_eq_true]

omit [Field K] [IsStrictOrderedRing K] in
theorem mem_ineq (l : List (Con K)) (i : ℕ) :
    i ∈ (List.range l.length).filter (fun i => !at' l Con.eqB i) ↔
      ∃ c, l[i]? = some c ∧ ¬ c.IsEq := by
  rw [List.mem_filter, List.mem_range]
  constructor
  · rintro ⟨h, h'⟩
    refine ⟨l[i], List.getElem?_eq_getElem h, fun he => ?_⟩
    have : at' l Con.eqB i = true :=
      (at'_iff _ _ _).2 ⟨l[i], List.getElem?_eq_getElem h, (eqB_iff _).2 he⟩
    simp [this] at h'
  · rintro ⟨c, hc, he⟩
    refine ⟨(List.getElem?_eq_some_iff.1 hc).1, ?_⟩
    rw [Bool.not_eq_true', Bool.eq_false_iff]
    intro h
    obtain ⟨c', hc', he'⟩ := (at'_iff _ _ _).1 h
    rw [hc] at hc'
    cases hc'
    exact he ((eqB_iff _).1 he')

omit [Field K] [IsStrictOrderedRing K] in
theorem mem_eq (l : List (Con K)) (i : ℕ) :
    i ∈ (List.range l.length).filter (at' l Con.eqB) ↔ ∃ c, l[i]? = some c ∧ c.IsEq := by
  rw [List.mem_filter, List.mem_range, at'_iff]
  constructor
  · rintro ⟨_, c, hc, he⟩
    exact ⟨c, hc, (eqB_iff _).1 he⟩
  · rintro ⟨c, hc, he⟩
    exact ⟨(List.getElem?_eq_some_iff.1 hc).1, c, hc, (eqB_iff _).2 he⟩

omit [IsStrictOrderedRing K] in
theorem mem_lo (l : List (Con K)) (t : K) (i : ℕ) :
    i ∈ ((List.range l.length).filter (fun i => !at' l Con.eqB i)).filter (at' l (Con.below t)) ↔
      ∃ c, l[i]? = some c ∧ c.ActLo t := by
  rw [List.mem_filter, mem_ineq, at'_iff]
  constructor
  · rintro ⟨⟨c, hc, he⟩, c', hc', hb⟩
    rw [hc] at hc'
    cases hc'
    exact ⟨c, hc, he, (below_iff _ _).1 hb⟩
  · rintro ⟨c, hc, he, hb⟩
    exact ⟨⟨c, hc, he⟩, c, hc, (below_iff _ _).2 hb⟩

omit [IsStrictOrderedRing K] in
theorem mem_up (l : List (Con K)) (t : K) (i : ℕ) :
    i ∈ ((List.range l.length).filter (fun i => !at' l Con.eqB i)).filter (at' l (Con.above t)) ↔
      ∃ c, l[i]? = some c ∧ c.ActUp t := by
  rw [List.mem_filter, mem_ineq, at'_iff]
  constructor
  · rintro ⟨⟨c, hc, he⟩, c', hc', hb⟩
    rw [hc] at hc'
    cases hc'
    exact ⟨c, hc, he, (above_iff _ _).1 hb⟩
  · rintro ⟨c, hc, he, hb⟩
    exact ⟨⟨c, hc, he⟩, c, hc, (above_iff _ _).2 hb⟩

theorem viol_iff (l : List (Con K)) (t : K) :
    ((((List.range l.length).filter (fun i => !at' l Con.eqB i)).any (at' l (Con.below (-t))) ||
      ((List.range l.length).filter (fun i => !at' l Con.eqB i)).any (at' l (Con.above (-t))))
        = true) ↔ ∃ c ∈ l, c.Violated t := by
  rw [Bool.or_eq_true, List.any_eq_true, List.any_eq_true]
  constructor
  · rintro (⟨i, hi, hb⟩ | ⟨i, hi, hb⟩)
    · obtain ⟨c, hc, he⟩ := (mem_ineq _ _).1 hi
      obtain ⟨c', hc', hb'⟩ := (at'_iff _ _ _).1 hb
      rw [hc] at hc'
      cases hc'
      obtain ⟨a, ha, hlt⟩ := (below_iff _ _).1 hb'
      exact ⟨c, List.mem_of_getElem? hc, he, Or.inl ⟨a, ha, by linarith⟩⟩
    · obtain ⟨c, hc, he⟩ := (mem_ineq _ _).1 hi
      obtain ⟨c', hc', hb'⟩ := (at'_iff _ _ _).1 hb
      rw [hc] at hc'
      cases hc'
      obtain ⟨a, ha, hlt⟩ := (above_iff _ _).1 hb'
      exact ⟨c, List.mem_of_getElem? hc, he, Or.inr ⟨a, ha, by linarith⟩⟩
  · rintro ⟨c, hm, he, hv⟩
    obtain ⟨i, hc⟩ := List.getElem?_of_mem hm
    rcases hv with ⟨a, ha, hlt⟩ | ⟨a, ha, hlt⟩
    · exact Or.inl ⟨i, (mem_ineq _ _).2 ⟨c, hc, he⟩, (at'_iff _ _ _).2
        ⟨c, hc, (below_iff _ _).2 ⟨a, ha, by linarith⟩⟩⟩
    · exact Or.inr ⟨i, (mem_ineq _ _).2 ⟨c, hc, he⟩, (at'_iff _ _ _).2
        ⟨c, hc, (above_iff _ _).2 ⟨a, ha, by linarith⟩⟩⟩

theorem indices_none (n : Nlp K) (k : ℕ) :
    n.indices k = none ↔ ∃ c ∈ n.cons k, c.Violated n.tol := by
  rw [← viol_iff]
  unfold Nlp.indices
  simp only
  split
  · rename_i h; exact ⟨fun _ => h, fun _ => rfl⟩
  · rename_i h; exact ⟨fun h' => (by cases h'), fun h' => absurd h' h⟩

omit [IsStrictOrderedRing K] in
theorem indices_some {n : Nlp K} {k : ℕ} {ix : Idx} (h : n.indices k = some ix) :
    ix.ineq = (List.range (n.cons k).length).filter (fun i => !at' (n.cons k) Con.eqB i) ∧
    ix.eqBounds = ((List.range (n.cons k).length).filter (at' (n.cons k) Con.eqB)).filter
      (fun i => decide (i < n.nb k)) ∧
    ix.eqG = ((List.range (n.cons k).length).filter (at' (n.cons k) Con.eqB)).filter
      (fun i => !decide (i < n.nb k)) ∧
    ix.lo = ((List.range (n.cons k).length).filter (fun i => !at' (n.cons k) Con.eqB i)).filter
      (at' (n.cons k) (Con.below n.tol)) ∧
    ix.up = ((List.range (n.cons k).length).filter (fun i => !at' (n.cons k) Con.eqB i)).filter
      (at' (n.cons k) (Con.above n.tol)) := by
  unfold Nlp.indices at h
  simp only at h
  split at h
  · cases h
  · cases h
    exact ⟨rfl, rfl, rfl, rfl, rfl⟩

theorem loop_true (f : ℕ → Option Bool) (ks : List ℕ) :
    loop f ks = some true ↔ ∀ k ∈ ks, f k = some true := by
  induction ks with
  | nil => simp [loop]
  | cons k ks ih =>
    simp only [loop, List.forall_mem_cons]
    rcases hf : f k with _ | b
    · simp
    · cases b <;> simp [ih]

theorem loop_none (f : ℕ → Option Bool) (ks : List ℕ) (h : ∀ k ∈ ks, f k ≠ none) :
    loop f ks ≠ none := by
  induction ks with
  | nil => simp [loop]
  | cons k ks ih =>
    simp only [loop]
    rcases hf : f k with _ | b
    · exact absurd hf (h k (by simp))
    · cases b
      · simp
      · simpa using ih (fun j hj => h j (by simp [hj]))

/-- Full row rank is linear independence of the rows. -/
theorem rank_iff {K : Type*} [Field K] (l : List (Con K)) (rows : List (Bool × ℕ))
    (cols : List ℕ) :
    (jacMat l rows cols).rank = rows.length ↔
      ∀ y : Fin rows.length → K,
        (∀ q ∈ cols, ∑ a, y a * entry l rows[a] q = 0) → ∀ a, y a = 0 := by
  have h1 : (jacMat l rows cols).rank = rows.length ↔
      LinearIndependent K (jacMat l rows cols).row := by
    rw [linearIndependent_iff_card_eq_finrank_span, Matrix.rank_eq_finrank_span_row,
      Fintype.card_fin, Set.finrank, eq_comm]
  rw [h1, Fintype.linearIndependent_iff]
  have key : ∀ y : Fin rows.length → K, (∑ a, y a • (jacMat l rows cols).row a = 0) ↔
      ∀ q ∈ cols, ∑ a, y a * entry l rows[a] q = 0 := by
    intro y
    constructor
    · intro h q hq
      obtain ⟨b, hb, rfl⟩ := List.getElem_of_mem hq
      have := congrFun h ⟨b, hb⟩
      simpa [jacMat, Finset.sum_apply] using this
    · intro h
      funext b
      have := h cols[b] (List.getElem_mem _)
      simpa [jacMat, Finset.sum_apply] using this
  exact forall_congr' fun y => by rw [key]

/-- A sum over positions of a list as the sum of the list. -/
theorem sum_rows {α M : Type*} [AddCommMonoid M] (rows : List α) (f : α → M) :
    ∑ a : Fin rows.length, f rows[a] = (rows.map f).sum := by
  induction rows with
  | nil => simp
  | cons r rs ih =>
    rw [List.map_cons, List.sum_cons, ← ih]
    exact Fin.sum_univ_succ (fun a : Fin (rs.length + 1) => f (r :: rs)[a])

/-- A sum over a filtered range. -/
theorem sum_filter_range {M : Type*} [AddCommMonoid M] (m : ℕ) (p : ℕ → Bool) (f : ℕ → M)
    (h : ∀ i < m, p i = false → f i = 0) :
    (((List.range m).filter p).map f).sum = ∑ i ∈ Finset.range m, f i := by
  induction m with
  | zero => simp
  | succ m ih =>
    rw [List.range_succ, List.filter_append, List.map_append, List.sum_append,
      ih (fun i hi => h i (by omega)), Finset.sum_range_succ]
    congr 1
    cases hp : p m
    · simp [hp, h m (by omega) hp]
    · simp [hp]

end

end Acados.Regularity
