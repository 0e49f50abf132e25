import Verif.Lemmas.RegularityLicq
import Mathlib.Algebra.Order.Ring.Rat

/-!
C104: the checks of strict complementarity and of LICQ at a solution, by stage, mean what they say.
-/

namespace Acados.Regularity

section
variable {K : Type*} [Field K] [LinearOrder K] [IsStrictOrderedRing K]

/-- **C104.** The index lists of a stage: an exception is raised exactly if an inequality of the
stage is violated by more than the tolerance; otherwise the lists are exactly the positions, in
increasing order, of inequalities, of equalities among the first `nbx + nbu` constraints, of other
equalities, and of inequalities active at their lower and upper bounds. -/
theorem C104_indices (n : Nlp K) (k : ℕ) :
    (n.indices k = none ↔ ∃ c ∈ n.cons k, c.Violated n.tol) ∧
    ∀ ix, n.indices k = some ix →
      (∀ i, i ∈ ix.ineq ↔ ∃ c, (n.cons k)[i]? = some c ∧ ¬ c.IsEq) ∧
      (∀ i, i ∈ ix.eqBounds ↔ i < n.nb k ∧ ∃ c, (n.cons k)[i]? = some c ∧ c.IsEq) ∧
      (∀ i, i ∈ ix.eqG ↔ n.nb k ≤ i ∧ ∃ c, (n.cons k)[i]? = some c ∧ c.IsEq) ∧
      (∀ i, i ∈ ix.lo ↔ ∃ c, (n.cons k)[i]? = some c ∧ c.ActLo n.tol) ∧
      (∀ i, i ∈ ix.up ↔ ∃ c, (n.cons k)[i]? = some c ∧ c.ActUp n.tol) ∧
      ix.ineq.Pairwise (· < ·) ∧ ix.eqBounds.Pairwise (· < ·) ∧ ix.eqG.Pairwise (· < ·) ∧
      ix.lo.Pairwise (· < ·) ∧ ix.up.Pairwise (· < ·) := by
  refine ⟨indices_none n k, fun ix h => ?_⟩
  obtain ⟨h1, h2, h3, h4, h5⟩ := indices_some h
  have hp : (List.range (n.cons k).length).Pairwise (· < ·) := List.pairwise_lt_range
  refine ⟨fun i => by rw [h1, mem_ineq], fun i => ?_, fun i => ?_, lo_iff h, up_iff h,
    ?_, ?_, ?_, ?_, ?_⟩
  · rw [h2, List.mem_filter, mem_eq, and_comm, decide_eq_true_eq]
  · rw [h3, List.mem_filter, mem_eq, and_comm]
    simp
  · rw [h1]; exact hp.filter _
  · rw [h2]; exact (hp.filter _).filter _
  · rw [h3]; exact (hp.filter _).filter _
  · rw [h4]; exact (hp.filter _).filter _
  · rw [h5]; exact (hp.filter _).filter _

omit [IsStrictOrderedRing K] in
theorem not_lt_max (t x : K) (ht : 0 < t) : (!decide (max 0 x < t)) = true ↔ t ≤ x := by
  rw [Bool.not_eq_true', decide_eq_false_iff_not, not_lt, le_max_iff]
  exact ⟨fun h => h.resolve_left (not_le.2 ht), Or.inr⟩

/-- **C104.** Strict complementarity of one stage, without regard to soft constraints (see
`C104_strict_soft_false`) and for the tolerance of the solver options instead of the one given (see
`C104_tol_false`): it is `True` exactly if no inequality is violated and every active bound has a
multiplier of the right sign that is at least the tolerance, and an exception exactly if an
inequality is violated. -/
theorem C104_strict_stage_partial (n : Nlp K) (ht : 0 < n.tol) (k : ℕ) (t : K) :
    (n.strictStage k t = none ↔ ∃ c ∈ n.cons k, c.Violated n.tol) ∧
    (n.strictStage k t = some true ↔
      ∀ c ∈ n.cons k, ¬ c.Violated n.tol ∧ c.Strict n.tol) := by
  constructor
  · rw [← indices_none]
    simp [Nlp.strictStage]
  · rcases h : n.indices k with _ | ix
    · have hv := (indices_none n k).1 h
      simp only [Nlp.strictStage, h, Option.map_none]
      constructor
      · intro h'; cases h'
      · intro h'
        obtain ⟨c, hc, hv⟩ := hv
        exact absurd hv (h' c hc).1
    · have hv : ∀ c ∈ n.cons k, ¬ c.Violated n.tol := by
        intro c hc hv
        have := (indices_none n k).2 ⟨c, hc, hv⟩
        rw [h] at this
        cases this
      simp only [Nlp.strictStage, h, Option.map_some, Option.some.injEq, Bool.and_eq_true,
        List.all_eq_true]
      constructor
      · rintro ⟨hl, hu⟩ c hc
        obtain ⟨i, hi⟩ := List.getElem?_of_mem hc
        refine ⟨hv c hc, fun ha => ?_, fun ha => ?_⟩
        · obtain ⟨c', hc', hs⟩ := (at'_iff _ _ _).1 (hl i ((lo_iff h i).2 ⟨c, hi, ha⟩))
          rw [hi] at hc'
          cases hc'
          exact (not_lt_max _ _ ht).1 hs
        · obtain ⟨c', hc', hs⟩ := (at'_iff _ _ _).1 (hu i ((up_iff h i).2 ⟨c, hi, ha⟩))
          rw [hi] at hc'
          cases hc'
          exact (not_lt_max _ _ ht).1 hs
      · intro hall
        constructor
        · intro i hi
          obtain ⟨c, hc, ha⟩ := (lo_iff h i).1 hi
          exact (at'_iff _ _ _).2 ⟨c, hc, (not_lt_max _ _ ht).2
            ((hall c (List.mem_of_getElem? hc)).2.1 ha)⟩
        · intro i hi
          obtain ⟨c, hc, ha⟩ := (up_iff h i).1 hi
          exact (at'_iff _ _ _).2 ⟨c, hc, (not_lt_max _ _ ht).2
            ((hall c (List.mem_of_getElem? hc)).2.2 ha)⟩

/-- **C104.** Strict complementarity of a solution, without regard to soft constraints: `True`
exactly if no inequality of any stage is violated and every active bound has a multiplier of the
right sign that is at least the tolerance; if no inequality is violated there is an answer. -/
theorem C104_strict_partial (n : Nlp K) (ht : 0 < n.tol) :
    (n.strict = some true ↔
      ∀ k ≤ n.N, ∀ c ∈ n.cons k, ¬ c.Violated n.tol ∧ c.Strict n.tol) ∧
    ((∀ k ≤ n.N, ∀ c ∈ n.cons k, ¬ c.Violated n.tol) → n.strict ≠ none) := by
  constructor
  · unfold Nlp.strict
    rw [loop_true]
    constructor
    · intro h k hk
      exact (C104_strict_stage_partial n ht k n.tol).2.1 (h k (List.mem_range.2 (by omega)))
    · intro h k hk
      exact (C104_strict_stage_partial n ht k n.tol).2.2
        (h k (Nat.lt_succ_iff.1 (List.mem_range.1 hk)))
  · intro h
    refine loop_none _ _ fun k hk hn => ?_
    obtain ⟨c, hc, hv⟩ := (C104_strict_stage_partial n ht k n.tol).1.1 hn
    exact h k (Nat.lt_succ_iff.1 (List.mem_range.1 hk)) c hc hv

omit [IsStrictOrderedRing K] in
theorem mapM_some (f : ℕ → Option Bool) (ks : List ℕ) (bs : List Bool)
    (h : ks.mapM f = some bs) :
    bs.length = ks.length ∧ ∀ (j : ℕ) (k : ℕ), ks[j]? = some k → bs[j]? = f k := by
  induction ks generalizing bs with
  | nil =>
    simp only [List.mapM_nil] at h
    cases h
    simp
  | cons k ks ih =>
    rw [List.mapM_cons] at h
    rcases hf : f k with _ | b
    · rw [hf] at h; cases h
    · rw [hf] at h
      rcases hr : ks.mapM f with _ | bs'
      · rw [hr] at h; cases h
      · rw [hr] at h
        cases h
        obtain ⟨h1, h2⟩ := ih bs' hr
        refine ⟨by simp [h1], fun j k' hj => ?_⟩
        cases j with
        | zero =>
          simp only [List.getElem?_cons_zero, Option.some.injEq] at hj ⊢
          rw [← hj, hf]
        | succ j => simpa using h2 j k' (by simpa using hj)

omit [IsStrictOrderedRing K] in
/-- **C104.** The list of answers has one entry per stage, which is the answer for that stage. -/
theorem C104_strict_stages_partial (n : Nlp K) (t : K) (bs : List Bool)
    (h : n.strictStages t = some bs) :
    bs.length = n.N + 1 ∧ ∀ k ≤ n.N, bs[k]? = n.strictStage k t := by
  obtain ⟨h1, h2⟩ := mapM_some _ _ _ h
  refine ⟨by simpa using h1, fun k hk => ?_⟩
  exact h2 k k (by rw [List.getElem?_range (by omega)])

/-- **C104.** LICQ of one stage: `True` exactly if no inequality of the stage is violated and the
gradients with respect to the variables of the stage, of its equalities and active bounds, are
linearly independent; equalities among the bounds on variables of the initial stage are left out. -/
theorem C104_licq_stage (n : Nlp K) (k : ℕ) :
    n.licqStage k = some true ↔
      (∀ c ∈ n.cons k, ¬ c.Violated n.tol) ∧
      ∀ e l u : ℕ → K,
        (∀ i c, (n.cons k)[i]? = some c →
          (¬ c.IsEq ∨ (k = 0 ∧ i < n.nb 0) → e i = 0) ∧
          (¬ c.ActLo n.tol → l i = 0) ∧ (¬ c.ActUp n.tol → u i = 0)) →
        (∀ q ∈ n.cols k, ∑ i ∈ Finset.range (n.cons k).length,
          (e i - l i + u i) * gradAt (n.cons k) i q = 0) →
        ∀ i < (n.cons k).length, e i = 0 ∧ l i = 0 ∧ u i = 0 := by
  rw [licqStage_true]
  rcases h : n.indices k with _ | ix
  · constructor
    · rintro ⟨ix, h', -⟩; cases h'
    · rintro ⟨hv, -⟩
      obtain ⟨c, hc, hv'⟩ := (indices_none n k).1 h
      exact absurd hv' (hv c hc)
  · have hv : ∀ c ∈ n.cons k, ¬ c.Violated n.tol := by
      intro c hc hv
      have := (indices_none n k).2 ⟨c, hc, hv⟩
      rw [h] at this
      cases this
    constructor
    · rintro ⟨ix', h', hr⟩
      cases h'
      exact ⟨hv, (rank_stage h).1 hr⟩
    · rintro ⟨-, hst⟩
      exact ⟨ix, rfl, (rank_stage h).2 hst⟩

/-- **C104.** If the check of LICQ is `True`, no inequality is violated and the gradients of all
constraints of all stages, with respect to all variables, are linearly independent, except that
equalities among the bounds on variables of the initial stage are left out (see
`C104_licq_x0_false`), and soft constraints (see `C104_licq_soft_false`).  The stages may be linked:
constraints may depend on variables of later stages. -/
theorem C104_licq_partial (n : Nlp K) (hst : Staged n.N n.cons n.cols)
    (h : n.licq = some true) :
    (∀ k ≤ n.N, ∀ c ∈ n.cons k, ¬ c.Violated n.tol) ∧
    LicqExcept n.N n.cons n.tol (fun k i => k = 0 ∧ i < n.nb 0) := by
  have hk : ∀ k ≤ n.N, n.licqStage k = some true := fun k hk =>
    (loop_true _ _).1 h k (List.mem_range.2 (by omega))
  refine ⟨fun k hk' => ((C104_licq_stage n k).1 (hk k hk')).1, ?_⟩
  intro e l u hs hsum k
  induction k using Nat.strong_induction_on with
  | _ k ih =>
    intro hkN
    refine ((C104_licq_stage n k).1 (hk k hkN)).2 (e k) (l k) (u k)
      (fun i c hc => hs k i c hkN hc) (fun q hq => ?_)
    rw [← hsum q]
    symm
    refine Finset.sum_eq_single k (fun j hj hne => ?_) (fun hn => ?_)
    · have hjN : j ≤ n.N := Nat.lt_succ_iff.1 (Finset.mem_range.1 hj)
      refine Finset.sum_eq_zero fun i hi => ?_
      rcases Nat.lt_or_gt_of_ne hne with hlt | hgt
      · obtain ⟨h1, h2, h3⟩ := ih j hlt hjN i (Finset.mem_range.1 hi)
        rw [h1, h2, h3]; ring
      · have hg : gradAt (n.cons j) i q = 0 := by
          unfold gradAt
          rw [List.getElem?_eq_getElem (Finset.mem_range.1 hi)]
          exact hst j hjN _ (List.getElem_mem _) k hgt q hq
        rw [hg, mul_zero]
    · exact absurd (Finset.mem_range.2 (Nat.lt_succ_of_le hkN)) hn

/-- **C104.** Without equalities among the bounds on variables of the initial stage (and without
soft constraints), `True` means LICQ. -/
theorem C104_licq_free_x0_partial (n : Nlp K) (hst : Staged n.N n.cons n.cols)
    (h0 : ∀ i c, i < n.nb 0 → (n.cons 0)[i]? = some c → ¬ c.IsEq)
    (h : n.licq = some true) : Licq n.N n.cons n.tol := by
  intro e l u hs
  refine (C104_licq_partial n hst h).2 e l u (fun k i c hk hc => ?_)
  obtain ⟨h1, h2, h3⟩ := hs k i c hk hc
  refine ⟨fun h' => h1 ?_, h2, h3⟩
  rcases h' with h' | ⟨rfl, hi⟩
  · exact Or.inl h'
  · exact Or.inl (h0 i c hi hc)

end

/-! ### Concrete problems

One state and one control, horizon one: variables `x0`, `u0`, `x1` have indices 0, 1, 2. -/

/-- `x1 = x0 + u0`, `x0 = 0`, `0 ≤ u0 ≤ 1`, `0 ≤ x1 ≤ 1` at the point zero. -/
def exNlp : Nlp ℚ where
  N := 1
  lbw := fun _ => some 0
  ubw := fun p => if p = 0 then some 0 else some 1
  w := fun _ => 0
  lamW := fun p => if p = 0 then 5 else -1
  lbg := fun _ => some 0
  ubg := fun _ => some 0
  g := fun _ => 0
  lamG := fun _ => 2
  jac := fun _ q => if q = 2 then 1 else -1
  xInW := fun k => if k = 0 then [0] else [2]
  uInW := fun _ => [1]
  lamBx := fun k => if k = 0 then [0] else [2]
  lamBu := fun _ => [1]
  pi := fun _ => [0]
  lamGnl := fun _ => []
  lamGnlSl := fun _ => []
  lamGnlSu := fun _ => []
  lamSl := fun _ => []
  lamSu := fun _ => []
  nbx0 := 1
  nbx := 0
  nbxe := 1
  nbu := 1
  tol := 1 / 10

example : exNlp.indices 0 = some ⟨[1], [0], [2], [1], []⟩ ∧
    exNlp.indices 1 = some ⟨[0], [], [], [0], []⟩ := by decide +kernel

example : exNlp.strict = some true ∧ exNlp.strictStages 0 = some [true, true] := by
  decide +kernel

/-- A multiplier below the tolerance, an exception. -/
example : ({ exNlp with lamW := fun _ => 0 }).strict = some false ∧
    ({ exNlp with w := fun _ => -1 }).strict = none := by decide +kernel

theorem ex_staged : Staged exNlp.N exNlp.cons exNlp.cols := by
  have h : ∀ k < 2, ∀ c ∈ exNlp.cons k, ∀ j < k, ∀ q ∈ exNlp.cols j, c.grad q = 0 := by
    intro k hk
    have h2 : k = 0 ∨ k = 1 := by omega
    rcases h2 with rfl | rfl
    · intro c _ j hj; omega
    · intro c hc j hj q hq
      obtain rfl : j = 0 := by omega
      have hc' : c = exNlp.conW 2 := by simpa [Nlp.cons, exNlp] using hc
      have hq' : q = 0 ∨ q = 1 := by simpa [Nlp.cols, exNlp] using hq
      subst hc'
      rcases hq' with rfl | rfl <;> decide +kernel
  exact fun k hk => h k (Nat.lt_succ_of_le hk)

theorem ex_licq : exNlp.licq = some true := by
  refine (loop_true _ _).2 fun k hk => ?_
  have h2 : k = 0 ∨ k = 1 := by
    have := List.mem_range.1 hk
    simp only [exNlp] at this
    omega
  rcases h2 with rfl | rfl
  · refine licqStage_true.2 ⟨⟨[1], [0], [2], [1], []⟩, by decide +kernel, ?_⟩
    change (jacMat (exNlp.cons 0) [(false, 2), (true, 1)] [0, 1]).rank = 2
    refine rank_two _ _ _ _ fun a b h => ?_
    have h0 := h 0 (by decide)
    have h1 := h 1 (by decide)
    have e1 : entry (exNlp.cons 0) (false, 2) 0 = -1 := by decide +kernel
    have e2 : entry (exNlp.cons 0) (true, 1) 0 = 0 := by decide +kernel
    have e3 : entry (exNlp.cons 0) (false, 2) 1 = -1 := by decide +kernel
    have e4 : entry (exNlp.cons 0) (true, 1) 1 = -1 := by decide +kernel
    rw [e1, e2] at h0
    rw [e3, e4] at h1
    constructor <;> linarith
  · refine licqStage_true.2 ⟨⟨[0], [], [], [0], []⟩, by decide +kernel, ?_⟩
    change (jacMat (exNlp.cons 1) [(true, 0)] [2]).rank = 1
    refine rank_one _ _ _ fun a h => ?_
    have h0 := h 2 (by decide)
    have e1 : entry (exNlp.cons 1) (true, 0) 2 = -1 := by decide +kernel
    rw [e1] at h0
    linarith

/-- The hypotheses of `C104_licq_partial` are met, and it is not vacuous: three constraints. -/
example : LicqExcept exNlp.N exNlp.cons exNlp.tol (fun k i => k = 0 ∧ i < exNlp.nb 0) :=
  (C104_licq_partial exNlp ex_staged ex_licq).2

/-- **C104.** The tolerance given to the checks by stage has no effect: a multiplier of 1 at an
active bound is reported as strictly complementary for a tolerance of 3. -/
theorem C104_tol_false : ∃ (n : Nlp ℚ) (t : ℚ) (k : ℕ), k ≤ n.N ∧ n.strictStage k t = some true ∧
    n.strictStages t = some [true, true] ∧ ∃ c ∈ n.cons k, c.ActLo t ∧ ¬ t ≤ -c.lam := by
  refine ⟨exNlp, 3, 1, by decide, by decide +kernel, by decide +kernel, exNlp.conW 2, ?_, ?_, ?_⟩
  · simp [Nlp.cons, exNlp]
  · refine ⟨?_, 0, by decide +kernel, by decide +kernel⟩
    rintro ⟨a, ha, hb⟩
    have h1 : (exNlp.conW 2).lb = some 0 := by decide +kernel
    have h2 : (exNlp.conW 2).ub = some 1 := by decide +kernel
    rw [h1] at ha
    rw [h2] at hb
    cases ha
    exact absurd hb (by decide +kernel)
  · decide +kernel

/-- **C104.** A violated equality is not noticed by the checks: `x1 = x0 + u0` with an error of
seven. -/
theorem C104_equality_false : ∃ (n : Nlp ℚ), n.strict = some true ∧
    ∃ c ∈ n.cons 0, c.IsEq ∧ c.lb = some 0 ∧ c.val = 7 := by
  refine ⟨{ exNlp with g := fun _ => 7 }, by decide +kernel,
    ({ exNlp with g := fun _ => 7 } : Nlp ℚ).conG 0, ?_, ⟨0, rfl, rfl⟩, rfl, rfl⟩
  simp [Nlp.cons, exNlp]

/-- `x1 = x0 + u0`, `0 ≤ x0 ≤ 1`, `-1 ≤ u0 ≤ 1`, `0 ≤ x1 ≤ 1` and a soft constraint
`x0 + sl ≥ 0`, `x0 - su ≤ 1` of the initial stage: constraints 1 and 2, slacks 3 and 4. -/
def exSoft : Nlp ℚ where
  N := 1
  lbw := fun p => some (if p = 1 then -1 else 0)
  ubw := fun p => if p < 3 then some 1 else none
  w := fun _ => 0
  lamW := fun p => if p = 1 then 0 else -1
  lbg := fun p => if p = 2 then none else some 0
  ubg := fun p => if p = 0 then some 0 else if p = 1 then none else some 1
  g := fun _ => 0
  lamG := fun _ => 0
  jac := fun p q =>
    if p = 0 then (if q = 2 then 1 else if q < 2 then -1 else 0)
    else if p = 1 then (if q = 0 ∨ q = 3 then 1 else 0)
    else (if q = 0 then 1 else if q = 4 then -1 else 0)
  xInW := fun k => if k = 0 then [0] else [2]
  uInW := fun _ => [1]
  lamBx := fun k => if k = 0 then [0] else [2]
  lamBu := fun _ => [1]
  pi := fun _ => [0]
  lamGnl := fun _ => []
  lamGnlSl := fun k => if k = 0 then [1] else []
  lamGnlSu := fun k => if k = 0 then [2] else []
  lamSl := fun k => if k = 0 then [3] else []
  lamSu := fun k => if k = 0 then [4] else []
  nbx0 := 1
  nbx := 0
  nbxe := 1
  nbu := 1
  tol := 1 / 10

/-- **C104.** Soft constraints are ignored: one is active with multiplier zero, and strict
complementarity is reported. -/
theorem C104_strict_soft_false : ∃ (n : Nlp ℚ), n.strict = some true ∧
    ∃ c ∈ n.soft 0, c.ActLo n.tol ∧ c.lam = 0 ∧ ¬ c.Strict n.tol := by
  have ha : (exSoft.conG 1).ActLo exSoft.tol := by
    refine ⟨?_, 0, by decide +kernel, by decide +kernel⟩
    rintro ⟨a, -, hb⟩
    have h2 : (exSoft.conG 1).ub = none := by decide +kernel
    rw [h2] at hb
    cases hb
  refine ⟨exSoft, by decide +kernel, exSoft.conG 1, ?_, ha, rfl, fun hs => ?_⟩
  · simp [Nlp.soft, exSoft]
  · exact absurd (hs.1 ha) (by decide +kernel)

theorem exSoft_licq : exSoft.licq = some true := by
  refine (loop_true _ _).2 fun k hk => ?_
  have h2 : k = 0 ∨ k = 1 := by
    have := List.mem_range.1 hk
    simp only [exSoft] at this
    omega
  rcases h2 with rfl | rfl
  · refine licqStage_true.2 ⟨⟨[0, 1], [], [2], [0], []⟩, by decide +kernel, ?_⟩
    change (jacMat (exSoft.cons 0) [(false, 2), (true, 0)] [0, 1]).rank = 2
    refine rank_two _ _ _ _ fun a b h => ?_
    have h0 := h 0 (by decide)
    have h1 := h 1 (by decide)
    have e1 : entry (exSoft.cons 0) (false, 2) 0 = -1 := by decide +kernel
    have e2 : entry (exSoft.cons 0) (true, 0) 0 = -1 := by decide +kernel
    have e3 : entry (exSoft.cons 0) (false, 2) 1 = -1 := by decide +kernel
    have e4 : entry (exSoft.cons 0) (true, 0) 1 = 0 := by decide +kernel
    rw [e1, e2] at h0
    rw [e3, e4] at h1
    constructor <;> linarith
  · refine licqStage_true.2 ⟨⟨[0], [], [], [0], []⟩, by decide +kernel, ?_⟩
    change (jacMat (exSoft.cons 1) [(true, 0)] [2]).rank = 1
    refine rank_one _ _ _ fun a h => ?_
    have h0 := h 2 (by decide)
    have e1 : entry (exSoft.cons 1) (true, 0) 2 = -1 := by decide +kernel
    rw [e1] at h0
    linarith

/-- **C104.** LICQ is reported although the gradients of active constraints are linearly dependent:
a bound on the state, a soft constraint on the same state and the bound on its slack, of which the
check reads the first only.  No bound on a variable is an equality. -/
theorem C104_licq_soft_false : ∃ n : Nlp ℚ, n.licq = some true ∧
    Staged n.N n.allCons n.cols ∧
    (∀ p, n.lbw p ≠ n.ubw p) ∧ ¬ Licq n.N n.allCons n.tol := by
  have hc0 : exSoft.allCons 0 = [exSoft.conW 0, exSoft.conW 1, exSoft.conG 0,
      exSoft.conG 1, exSoft.conG 2, exSoft.conW 3, exSoft.conW 4] := by
    simp [Nlp.allCons, Nlp.cons, Nlp.soft, exSoft]
  have hc1 : exSoft.allCons 1 = [exSoft.conW 2] := by
    simp [Nlp.allCons, Nlp.cons, Nlp.soft, exSoft]
  have hN : exSoft.N = 1 := rfl
  refine ⟨exSoft, exSoft_licq, ?_, ?_, ?_⟩
  · intro k hk c hc j hj q hq
    have hk1 : k = 1 := by omega
    have hj0 : j = 0 := by omega
    subst hk1 hj0
    have hc' : c = exSoft.conW 2 := by rw [hc1] at hc; simpa using hc
    have hq' : q = 0 ∨ q = 1 := by simpa [Nlp.cols, exSoft] using hq
    subst hc'
    rcases hq' with rfl | rfl <;> decide +kernel
  · intro p
    simp only [exSoft]
    split_ifs <;> simp
    norm_num
  · intro h
    have := h (fun _ _ => 0)
      (fun k i => if k = 0 then (if i = 0 ∨ i = 5 then 1 else if i = 3 then -1 else 0) else 0)
      (fun _ _ => 0) ?_ ?_ 0 (by decide) 0 (by rw [hc0]; decide)
    · simp at this
    · intro k i c hk hc
      refine ⟨fun _ => rfl, fun h' => ?_, fun _ => rfl⟩
      by_cases h0 : k = 0
      · subst h0
        have hc2 : [exSoft.conW 0, exSoft.conW 1, exSoft.conG 0,
          exSoft.conG 1, exSoft.conG 2, exSoft.conW 3, exSoft.conW 4][i]? = some c := by
          rw [← hc0]; exact hc
        have act : ∀ c : Con ℚ, c.eqB = false → c.below exSoft.tol = true → c.ActLo exSoft.tol := by
          intro c h1 h2
          refine ⟨fun he => ?_, (below_iff _ _).1 h2⟩
          rw [(eqB_iff c).2 he] at h1
          cases h1
        by_cases hi : i = 0 ∨ i = 5 ∨ i = 3
        · exfalso
          apply h'
          rcases hi with rfl | rfl | rfl
          · cases hc2; exact act _ (by decide +kernel) (by decide +kernel)
          · cases hc2; exact act _ (by decide +kernel) (by decide +kernel)
          · cases hc2; exact act _ (by decide +kernel) (by decide +kernel)
        · have hi0 : i ≠ 0 := fun h => hi (Or.inl h)
          have hi5 : i ≠ 5 := fun h => hi (Or.inr (Or.inl h))
          have hi3 : i ≠ 3 := fun h => hi (Or.inr (Or.inr h))
          simp [hi0, hi5, hi3]
      · simp [h0]
    · intro q
      rw [hN, Finset.sum_range_succ, Finset.sum_range_one, hc0, hc1]
      simp only [List.length_cons, List.length_nil, Finset.sum_range_succ, Finset.sum_range_zero]
      by_cases hq : q = 0
      · subst hq; decide +kernel
      · by_cases hq3 : q = 3
        · subst hq3; decide +kernel
        · simp [gradAt, Nlp.conW, Nlp.conG, exSoft, hq, hq3]

/-- `x1 = x0 + u0`, `x0 = 0` as a bound and again as a nonlinear constraint. -/
def exX0 : Nlp ℚ where
  N := 1
  lbw := fun p => if p = 0 then some 0 else none
  ubw := fun p => if p = 0 then some 0 else none
  w := fun _ => 0
  lamW := fun _ => 0
  lbg := fun _ => some 0
  ubg := fun _ => some 0
  g := fun _ => 0
  lamG := fun _ => 0
  jac := fun p q => if p = 0 then (if q = 2 then 1 else if q < 2 then -1 else 0)
    else (if q = 0 then 1 else 0)
  xInW := fun k => if k = 0 then [0] else [2]
  uInW := fun _ => [1]
  lamBx := fun k => if k = 0 then [0] else []
  lamBu := fun _ => []
  pi := fun _ => [0]
  lamGnl := fun k => if k = 0 then [1] else []
  lamGnlSl := fun _ => []
  lamGnlSu := fun _ => []
  lamSl := fun _ => []
  lamSu := fun _ => []
  nbx0 := 1
  nbx := 0
  nbxe := 0
  nbu := 0
  tol := 1 / 10

theorem exX0_licq : exX0.licq = some true := by
  refine (loop_true _ _).2 fun k hk => ?_
  have h2 : k = 0 ∨ k = 1 := by
    have := List.mem_range.1 hk
    simp only [exX0] at this
    omega
  rcases h2 with rfl | rfl
  · refine licqStage_true.2 ⟨⟨[], [0], [1, 2], [], []⟩, by decide +kernel, ?_⟩
    change (jacMat (exX0.cons 0) [(false, 1), (false, 2)] [0, 1]).rank = 2
    refine rank_two _ _ _ _ fun a b h => ?_
    have h0 := h 0 (by decide)
    have h1 := h 1 (by decide)
    have e1 : entry (exX0.cons 0) (false, 1) 0 = -1 := by decide +kernel
    have e2 : entry (exX0.cons 0) (false, 2) 0 = 1 := by decide +kernel
    have e3 : entry (exX0.cons 0) (false, 1) 1 = -1 := by decide +kernel
    have e4 : entry (exX0.cons 0) (false, 2) 1 = 0 := by decide +kernel
    rw [e1, e2] at h0
    rw [e3, e4] at h1
    constructor <;> linarith
  · refine licqStage_true.2 ⟨⟨[], [], [], [], []⟩, by decide +kernel, ?_⟩
    exact rank_nil _ _

/-- **C104.** LICQ is reported although the gradients of the equalities are linearly dependent: the
initial state is fixed by bounds, which the check leaves out, and by another constraint. -/
theorem C104_licq_x0_false : ∃ n : Nlp ℚ, n.licq = some true ∧ Staged n.N n.cons n.cols ∧
    ¬ Licq n.N n.cons n.tol := by
  have hc0 : exX0.cons 0 = [exX0.conW 0, exX0.conG 0, exX0.conG 1] := by
    simp [Nlp.cons, exX0]
  have hc1 : exX0.cons 1 = [] := by simp [Nlp.cons, exX0]
  refine ⟨exX0, exX0_licq, ?_, ?_⟩
  · intro k hk c hc j hj
    have : k = 1 := by
      have : exX0.N = 1 := rfl
      omega
    subst this
    rw [hc1] at hc
    cases hc
  · intro h
    have := h (fun k i => if k = 0 then (if i = 0 then 1 else if i = 2 then -1 else 0) else 0)
      (fun _ _ => 0) (fun _ _ => 0) ?_ ?_ 0 (by decide) 0 (by rw [hc0]; decide)
    · simp at this
    · intro k i c hk hc
      refine ⟨fun h' => ?_, fun _ => rfl, fun _ => rfl⟩
      by_cases h0 : k = 0
      · subst h0
        rcases h' with h' | h'
        · exfalso
          apply h'
          rw [hc0] at hc
          have hm := List.mem_of_getElem? hc
          simp only [List.mem_cons, List.not_mem_nil, or_false] at hm
          rcases hm with rfl | rfl | rfl <;> exact ⟨0, rfl, rfl⟩
        · exact h'.elim
      · simp [h0]
    · intro q
      have hN : exX0.N = 1 := rfl
      rw [hN, Finset.sum_range_succ, Finset.sum_range_one, hc0, hc1]
      simp only [List.length_cons, List.length_nil, Finset.sum_range_succ, Finset.sum_range_zero]
      by_cases hq : q = 0
      · subst hq; decide +kernel
      · simp [gradAt, Nlp.conW, Nlp.conG, exX0, hq]

/-- `x1 = 0`, whatever `x0` and `u0`. -/
def exDyn : Nlp ℚ := { exX0 with
  jac := fun _ q => if q = 2 then 1 else 0
  lamBx := fun _ => []
  lamGnl := fun _ => []
  nbx0 := 0 }

/-- **C104.** LICQ holds and is not reported: the derivative of the dynamics with respect to the
next state is not taken into account. -/
theorem C104_licq_dyn_false : ∃ n : Nlp ℚ, Staged n.N n.cons n.cols ∧
    Licq n.N n.cons n.tol ∧ n.licq = some false := by
  have hc0 : exDyn.cons 0 = [exDyn.conG 0] := by simp [Nlp.cons, exDyn, exX0]
  have hc1 : exDyn.cons 1 = [] := by simp [Nlp.cons, exDyn, exX0]
  have hN : exDyn.N = 1 := rfl
  have hix : exDyn.indices 0 = some ⟨[], [], [0], [], []⟩ := by decide +kernel
  have heq : (exDyn.conG 0).IsEq := ⟨0, rfl, rfl⟩
  refine ⟨exDyn, ?_, ?_, ?_⟩
  · intro k hk c hc j hj
    have : k = 1 := by omega
    subst this
    rw [hc1] at hc
    cases hc
  · intro e l u hs hsum k hk i hi
    have hk2 : k = 0 ∨ k = 1 := by omega
    rcases hk2 with rfl | rfl
    · have hi0 : i = 0 := by rw [hc0] at hi; simpa using hi
      subst hi0
      obtain ⟨-, h2, h3⟩ := hs 0 0 (exDyn.conG 0) (by omega) (by rw [hc0]; rfl)
      have hl := h2 (fun ha => ha.1 heq)
      have hu := h3 (fun ha => ha.1 heq)
      have := hsum 2
      rw [hN, Finset.sum_range_succ, Finset.sum_range_one, hc0, hc1] at this
      have hg : gradAt [exDyn.conG 0] 0 2 = 1 := by decide +kernel
      simp only [List.length_cons, List.length_nil, Finset.sum_range_succ, Finset.sum_range_zero,
        hg, hl, hu] at this
      exact ⟨by linarith, hl, hu⟩
    · rw [hc1] at hi
      simp at hi
  · have hf : exDyn.licqStage 0 = some false := by
      have hne : exDyn.licqStage 0 ≠ some true := by
        rw [Ne, licqStage_true]
        rintro ⟨ix, h, hr⟩
        rw [hix] at h
        cases h
        have hr' := (rank_iff (exDyn.cons 0) [(false, 0)] [0, 1]).1 hr (fun _ => 1) (by
          intro q hq
          have hq' : q = 0 ∨ q = 1 := by simpa using hq
          rw [sum_rows [(false, 0)] (fun r => (1 : ℚ) * entry (exDyn.cons 0) r q)]
          rcases hq' with rfl | rfl <;> decide +kernel) ⟨0, by decide⟩
        exact absurd hr' (by decide +kernel)
      have hso : ∃ b, exDyn.licqStage 0 = some b := by
        unfold Nlp.licqStage
        rw [hix]
        exact ⟨_, rfl⟩
      obtain ⟨b, hb⟩ := hso
      cases b
      · exact hb
      · exact absurd hb hne
    have hr : List.range (exDyn.N + 1) = [0, 1] := by decide
    unfold Nlp.licq
    rw [hr]
    simp [loop, hf]

end Acados.Regularity
