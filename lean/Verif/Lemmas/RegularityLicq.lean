import Verif.Lemmas.Regularity
import Mathlib.Data.List.Nodup

/-! Helper lemmas for C104: the matrix of active gradients of a stage. -/

namespace Acados.Regularity

section
variable {K : Type*} [Field K] [LinearOrder K]

/-- Coefficients of one stage vanish where a constraint is not active or is left out. -/
def StageSupp (n : Nlp K) (k : ℕ) (e l u : ℕ → K) : Prop :=
  ∀ i c, (n.cons k)[i]? = some c →
    (¬ c.IsEq ∨ (k = 0 ∧ i < n.nb 0) → e i = 0) ∧
    (¬ c.ActLo n.tol → l i = 0) ∧ (¬ c.ActUp n.tol → u i = 0)

omit [LinearOrder K] in
/-- The coefficient of a row. -/
def rowCoef (e l u : ℕ → K) (r : Bool × ℕ) : K := if r.1 then l r.2 else e r.2 + u r.2

/-- Indices of the equalities the matrix contains. -/
def eqs (ix : Idx) (k : ℕ) : List ℕ := if k = 0 then ix.eqG else ix.eqBounds ++ ix.eqG

theorem mem_eqs {n : Nlp K} {k : ℕ} {ix : Idx} (h : n.indices k = some ix) (i : ℕ) :
    i ∈ eqs ix k ↔ ∃ c, (n.cons k)[i]? = some c ∧ c.IsEq ∧ ¬ (k = 0 ∧ i < n.nb 0) := by
  obtain ⟨-, hB, hG, -, -⟩ := indices_some h
  have h' : ∀ p : Prop, (∃ c, (n.cons k)[i]? = some c ∧ c.IsEq ∧ p) ↔
      (i ∈ (List.range (n.cons k).length).filter (at' (n.cons k) Con.eqB) ∧ p) := by
    intro p
    rw [mem_eq]
    constructor
    · rintro ⟨c, a, b, d⟩; exact ⟨⟨c, a, b⟩, d⟩
    · rintro ⟨⟨c, a, b⟩, d⟩; exact ⟨c, a, b, d⟩
  rw [h']
  unfold eqs
  by_cases hk : k = 0
  · subst hk
    rw [if_pos rfl, hG, List.mem_filter]
    simp
  · rw [if_neg hk, hB, hG, List.mem_append, List.mem_filter, List.mem_filter]
    by_cases hi : i < n.nb k <;> simp [hi, hk]

theorem eqs_nodup {n : Nlp K} {k : ℕ} {ix : Idx} (h : n.indices k = some ix) :
    (eqs ix k).Nodup := by
  obtain ⟨-, hB, hG, -, -⟩ := indices_some h
  unfold eqs
  split
  · rw [hG]; exact (List.nodup_range.filter _).filter _
  · rw [hB, hG]
    refine List.Nodup.append ((List.nodup_range.filter _).filter _)
      ((List.nodup_range.filter _).filter _) ?_
    intro i hi hi'
    have h1 := (List.mem_filter.1 hi).2
    have h2 := (List.mem_filter.1 hi').2
    simp only [h1] at h2
    exact absurd h2 (by decide)

omit [LinearOrder K] in
/-- The sum over a list of distinct indices. -/
theorem sum_nodup (L : List ℕ) (hL : L.Nodup) (m : ℕ) (hm : ∀ i ∈ L, i < m) (f : ℕ → K)
    (h : ∀ i < m, i ∉ L → f i = 0) : (L.map f).sum = ∑ i ∈ Finset.range m, f i := by
  rw [← List.sum_toFinset f hL]
  refine Finset.sum_subset ?_ ?_
  · intro i hi
    exact Finset.mem_range.2 (hm i (List.mem_toFinset.1 hi))
  · intro i hi hi'
    exact h i (Finset.mem_range.1 hi) (fun hc => hi' (List.mem_toFinset.2 hc))

theorem lo_iff {n : Nlp K} {k : ℕ} {ix : Idx} (h : n.indices k = some ix) (i : ℕ) :
    i ∈ ix.lo ↔ ∃ c, (n.cons k)[i]? = some c ∧ c.ActLo n.tol := by
  rw [(indices_some h).2.2.2.1, mem_lo]

theorem up_iff {n : Nlp K} {k : ℕ} {ix : Idx} (h : n.indices k = some ix) (i : ℕ) :
    i ∈ ix.up ↔ ∃ c, (n.cons k)[i]? = some c ∧ c.ActUp n.tol := by
  rw [(indices_some h).2.2.2.2, mem_up]

theorem lo_nodup {n : Nlp K} {k : ℕ} {ix : Idx} (h : n.indices k = some ix) : ix.lo.Nodup := by
  rw [(indices_some h).2.2.2.1]; exact (List.nodup_range.filter _).filter _

theorem up_nodup {n : Nlp K} {k : ℕ} {ix : Idx} (h : n.indices k = some ix) : ix.up.Nodup := by
  rw [(indices_some h).2.2.2.2]; exact (List.nodup_range.filter _).filter _

/-- The combination of the rows is the combination of the gradients. -/
theorem sum_formula {n : Nlp K} {k : ℕ} {ix : Idx} (h : n.indices k = some ix) (e l u : ℕ → K)
    (hs : StageSupp n k e l u) (q : ℕ) :
    ((ix.rows k).map (fun r => rowCoef e l u r * entry (n.cons k) r q)).sum =
      ∑ i ∈ Finset.range (n.cons k).length, (e i - l i + u i) * gradAt (n.cons k) i q := by
  have hlt : ∀ {i : ℕ} {c : Con K}, (n.cons k)[i]? = some c → i < (n.cons k).length :=
    fun hc => (List.getElem?_eq_some_iff.1 hc).1
  have hE : (((eqs ix k).map (fun i => (e i + u i) * gradAt (n.cons k) i q)).sum : K) =
      ∑ i ∈ Finset.range (n.cons k).length, e i * gradAt (n.cons k) i q := by
    rw [← sum_nodup (eqs ix k) (eqs_nodup h) _ _ (fun i => e i * gradAt (n.cons k) i q)]
    · congr 1
      refine List.map_congr_left fun i hi => ?_
      obtain ⟨c, hc, he, -⟩ := (mem_eqs h i).1 hi
      rw [(hs i c hc).2.2 (fun ha => ha.1 he), add_zero]
    · intro i hi hn
      have hc := List.getElem?_eq_getElem hi
      have : e i = 0 := by
        refine (hs i _ hc).1 ?_
        by_contra hcon
        rw [not_or, not_not] at hcon
        exact hn ((mem_eqs h i).2 ⟨_, hc, hcon.1, hcon.2⟩)
      rw [this, zero_mul]
    · intro i hi
      obtain ⟨c, hc, -⟩ := (mem_eqs h i).1 hi
      exact hlt hc
  have hL : ((ix.lo.map (fun i => l i * -gradAt (n.cons k) i q)).sum : K) =
      ∑ i ∈ Finset.range (n.cons k).length, l i * -gradAt (n.cons k) i q := by
    refine sum_nodup _ (lo_nodup h) _ ?_ _ ?_
    · intro i hi
      obtain ⟨c, hc, -⟩ := (lo_iff h i).1 hi
      exact hlt hc
    · intro i hi hn
      have hc := List.getElem?_eq_getElem hi
      rw [(hs i _ hc).2.1 (fun ha => hn ((lo_iff h i).2 ⟨_, hc, ha⟩)), zero_mul]
  have hU : ((ix.up.map (fun i => (e i + u i) * gradAt (n.cons k) i q)).sum : K) =
      ∑ i ∈ Finset.range (n.cons k).length, u i * gradAt (n.cons k) i q := by
    rw [← sum_nodup ix.up (up_nodup h) _ _ (fun i => u i * gradAt (n.cons k) i q)]
    · congr 1
      refine List.map_congr_left fun i hi => ?_
      obtain ⟨c, hc, ha⟩ := (up_iff h i).1 hi
      rw [(hs i c hc).1 (Or.inl ha.1), zero_add]
    · intro i hi hn
      have hc := List.getElem?_eq_getElem hi
      rw [(hs i _ hc).2.2 (fun ha => hn ((up_iff h i).2 ⟨_, hc, ha⟩)), zero_mul]
    · intro i hi
      obtain ⟨c, hc, -⟩ := (up_iff h i).1 hi
      exact hlt hc
  have hrows : ix.rows k = (eqs ix k).map (fun i => (false, i)) ++
      ix.lo.map (fun i => (true, i)) ++ ix.up.map (fun i => (false, i)) := rfl
  rw [hrows]
  simp only [List.map_append, List.map_map, List.sum_append]
  have e1 : ((fun r => rowCoef e l u r * entry (n.cons k) r q) ∘ fun i => (false, i)) =
      fun i => (e i + u i) * gradAt (n.cons k) i q := by
    funext i; simp [rowCoef, entry]
  have e2 : ((fun r => rowCoef e l u r * entry (n.cons k) r q) ∘ fun i => (true, i)) =
      fun i => l i * -gradAt (n.cons k) i q := by
    funext i; simp [rowCoef, entry]
  rw [e1, e2, hE, hL, hU, ← Finset.sum_add_distrib, ← Finset.sum_add_distrib]
  exact Finset.sum_congr rfl fun i _ => by ring

theorem rows_nodup {n : Nlp K} {k : ℕ} {ix : Idx} (h : n.indices k = some ix) :
    (ix.rows k).Nodup := by
  have hrows : ix.rows k = (eqs ix k).map (fun i => (false, i)) ++
      ix.lo.map (fun i => (true, i)) ++ ix.up.map (fun i => (false, i)) := rfl
  rw [hrows]
  refine List.Nodup.append (List.Nodup.append ?_ ?_ ?_) ?_ ?_
  · exact (eqs_nodup h).map (fun a b hab => by simpa using hab)
  · exact (lo_nodup h).map (fun a b hab => by simpa using hab)
  · intro r hr hr'
    obtain ⟨i, -, rfl⟩ := List.mem_map.1 hr
    obtain ⟨j, -, hj⟩ := List.mem_map.1 hr'
    cases hj
  · exact (up_nodup h).map (fun a b hab => by simpa using hab)
  · intro r hr hr'
    obtain ⟨j, hj, rfl⟩ := List.mem_map.1 hr'
    rcases List.mem_append.1 hr with hr | hr
    · obtain ⟨i, hi, hij⟩ := List.mem_map.1 hr
      cases hij
      obtain ⟨c, hc, he, -⟩ := (mem_eqs h j).1 hi
      obtain ⟨c', hc', ha⟩ := (up_iff h j).1 hj
      rw [hc] at hc'
      cases hc'
      exact ha.1 he
    · obtain ⟨i, hi, hij⟩ := List.mem_map.1 hr
      cases hij

theorem mem_rows_true {n : Nlp K} {k : ℕ} {ix : Idx} (h : n.indices k = some ix) (i : ℕ) :
    (true, i) ∈ ix.rows k ↔ ∃ c, (n.cons k)[i]? = some c ∧ c.ActLo n.tol := by
  rw [← lo_iff h]; simp [Idx.rows]

theorem mem_rows_false (ix : Idx) (k i : ℕ) :
    (false, i) ∈ ix.rows k ↔ i ∈ eqs ix k ∨ i ∈ ix.up := by
  have hrows : ix.rows k = (eqs ix k).map (fun i => (false, i)) ++
      ix.lo.map (fun i => (true, i)) ++ ix.up.map (fun i => (false, i)) := rfl
  rw [hrows]; simp

/-- The check of a stage is linear independence with respect to the variables of the stage. -/
theorem rank_stage {n : Nlp K} {k : ℕ} {ix : Idx} (h : n.indices k = some ix) :
    (jacMat (n.cons k) (ix.rows k) (n.cols k)).rank = (ix.rows k).length ↔
      ∀ e l u : ℕ → K, StageSupp n k e l u →
        (∀ q ∈ n.cols k, ∑ i ∈ Finset.range (n.cons k).length,
          (e i - l i + u i) * gradAt (n.cons k) i q = 0) →
        ∀ i < (n.cons k).length, e i = 0 ∧ l i = 0 ∧ u i = 0 := by
  rw [rank_iff]
  constructor
  · intro hr e l u hs hsum i hi
    have hz := hr (fun a => rowCoef e l u (ix.rows k)[a]) (fun q hq => by
      rw [sum_rows (ix.rows k) (fun r => rowCoef e l u r * entry (n.cons k) r q),
        sum_formula h e l u hs q]
      exact hsum q hq)
    have hz' : ∀ r ∈ ix.rows k, rowCoef e l u r = 0 := by
      intro r hr
      obtain ⟨a, ha, rfl⟩ := List.getElem_of_mem hr
      exact hz ⟨a, ha⟩
    have hc := List.getElem?_eq_getElem hi
    obtain ⟨s1, s2, s3⟩ := hs i _ hc
    refine ⟨?_, ?_, ?_⟩
    · by_contra hne
      have hmem : i ∈ eqs ix k := by
        rw [mem_eqs h]
        refine ⟨_, hc, ?_, fun hk => hne (s1 (Or.inr hk))⟩
        by_contra hq
        exact hne (s1 (Or.inl hq))
      obtain ⟨c, hc', he, -⟩ := (mem_eqs h i).1 hmem
      rw [hc] at hc'
      cases hc'
      have hu := s3 (fun ha => ha.1 he)
      have := hz' (false, i) ((mem_rows_false ix k i).2 (Or.inl hmem))
      simp only [rowCoef, Bool.false_eq_true, if_false, hu, add_zero] at this
      exact hne this
    · by_contra hne
      have ha : ((n.cons k)[i]).ActLo n.tol := by
        by_contra hq
        exact hne (s2 hq)
      have := hz' (true, i) ((mem_rows_true h i).2 ⟨_, hc, ha⟩)
      simp only [rowCoef, if_true] at this
      exact hne this
    · by_contra hne
      have ha : ((n.cons k)[i]).ActUp n.tol := by
        by_contra hq
        exact hne (s3 hq)
      have he := s1 (Or.inl ha.1)
      have := hz' (false, i) ((mem_rows_false ix k i).2 (Or.inr ((up_iff h i).2 ⟨_, hc, ha⟩)))
      simp only [rowCoef, Bool.false_eq_true, if_false, he, zero_add] at this
      exact hne this
  · intro hst y hy a
    classical
    let cf : Bool × ℕ → K := fun r =>
      if hr : (ix.rows k).idxOf r < (ix.rows k).length then y ⟨_, hr⟩ else 0
    have hcf : ∀ a : Fin (ix.rows k).length, cf (ix.rows k)[a] = y a := by
      intro a
      have : (ix.rows k).idxOf (ix.rows k)[a] = a := (rows_nodup h).idxOf_getElem a a.2
      simp only [cf]
      rw [dif_pos (by rw [this]; exact a.2)]
      congr 1
      exact Fin.ext this
    have hcf0 : ∀ r, r ∉ ix.rows k → cf r = 0 := by
      intro r hr
      simp only [cf]
      rw [dif_neg]
      rw [List.idxOf_lt_length_iff]
      exact hr
    let e : ℕ → K := fun i => if i ∈ eqs ix k then cf (false, i) else 0
    let u : ℕ → K := fun i => if i ∈ eqs ix k then 0 else cf (false, i)
    let l : ℕ → K := fun i => cf (true, i)
    have hcoef : ∀ r, rowCoef e l u r = cf r := by
      rintro ⟨s, i⟩
      cases s
      · simp only [rowCoef, e, u, Bool.false_eq_true, if_false]
        split <;> simp
      · simp [rowCoef, l]
    have hs : StageSupp n k e l u := by
      intro i c hc
      refine ⟨fun h' => ?_, fun h' => ?_, fun h' => ?_⟩
      · have : i ∉ eqs ix k := by
          intro hm
          obtain ⟨c', hc', he, hn⟩ := (mem_eqs h i).1 hm
          rw [hc] at hc'
          cases hc'
          rcases h' with h' | h'
          · exact h' he
          · exact hn h'
        simp [e, this]
      · refine hcf0 _ (fun hm => ?_)
        obtain ⟨c', hc', ha⟩ := (mem_rows_true h i).1 hm
        rw [hc] at hc'
        cases hc'
        exact h' ha
      · simp only [u]
        split
        · rfl
        · rename_i hne
          refine hcf0 _ (fun hm => ?_)
          rcases (mem_rows_false ix k i).1 hm with hm | hm
          · exact hne hm
          · obtain ⟨c', hc', ha⟩ := (up_iff h i).1 hm
            rw [hc] at hc'
            cases hc'
            exact h' ha
    have hall := hst e l u hs (fun q hq => by
      rw [← sum_formula h e l u hs q,
        ← sum_rows (ix.rows k) (fun r => rowCoef e l u r * entry (n.cons k) r q)]
      rw [← hy q hq]
      exact Finset.sum_congr rfl fun a _ => by rw [hcoef, hcf])
    rw [← hcf a, ← hcoef]
    have hi : ((ix.rows k)[a]).2 < (n.cons k).length := by
      have hm : (ix.rows k)[a] ∈ ix.rows k := List.getElem_mem _
      generalize (ix.rows k)[a] = r at hm ⊢
      obtain ⟨s, i⟩ := r
      cases s
      · rcases (mem_rows_false ix k i).1 hm with hm | hm
        · obtain ⟨c', hc', -⟩ := (mem_eqs h i).1 hm
          exact (List.getElem?_eq_some_iff.1 hc').1
        · obtain ⟨c', hc', -⟩ := (up_iff h i).1 hm
          exact (List.getElem?_eq_some_iff.1 hc').1
      · obtain ⟨c', hc', -⟩ := (mem_rows_true h i).1 hm
        exact (List.getElem?_eq_some_iff.1 hc').1
    obtain ⟨h1, h2, h3⟩ := hall _ hi
    unfold rowCoef
    split
    · exact h2
    · rw [h1, h3, add_zero]

omit [LinearOrder K] in
theorem rank_nil (l : List (Con K)) (cols : List ℕ) : (jacMat l [] cols).rank = 0 :=
  (rank_iff l [] cols).2 fun _ _ a => absurd a.2 (by simp)

omit [LinearOrder K] in
theorem rank_one (l : List (Con K)) (r : Bool × ℕ) (cols : List ℕ)
    (h : ∀ a : K, (∀ q ∈ cols, a * entry l r q = 0) → a = 0) : (jacMat l [r] cols).rank = 1 := by
  refine (rank_iff l [r] cols).2 fun y hy => ?_
  have h0 : y ⟨0, by simp⟩ = 0 := by
    refine h _ fun q hq => ?_
    have := hy q hq
    simpa using this
  rintro ⟨a, ha⟩
  obtain rfl : a = 0 := by simpa using ha
  exact h0

omit [LinearOrder K] in
theorem rank_two (l : List (Con K)) (r s : Bool × ℕ) (cols : List ℕ)
    (h : ∀ a b : K, (∀ q ∈ cols, a * entry l r q + b * entry l s q = 0) → a = 0 ∧ b = 0) :
    (jacMat l [r, s] cols).rank = 2 := by
  refine (rank_iff l [r, s] cols).2 fun y hy => ?_
  have h0 : y ⟨0, by simp⟩ = 0 ∧ y ⟨1, by simp⟩ = 0 := by
    refine h _ _ fun q hq => ?_
    have := hy q hq
    rw [← this]
    exact (Fin.sum_univ_two (fun a : Fin 2 => y a * entry l [r, s][a] q)).symm
  rintro ⟨a, ha⟩
  have ha' : a < 2 := ha
  have : a = 0 ∨ a = 1 := by omega
  rcases this with rfl | rfl
  · exact h0.1
  · exact h0.2

theorem licqStage_true {n : Nlp K} {k : ℕ} :
    n.licqStage k = some true ↔ ∃ ix, n.indices k = some ix ∧
      (jacMat (n.cons k) (ix.rows k) (n.cols k)).rank = (ix.rows k).length := by
  unfold Nlp.licqStage
  rcases h : n.indices k with _ | ix
  · simp
  · simp

end

end Acados.Regularity
