import Verif.Lemmas.QpLicq
import Mathlib.Algebra.Order.Field.Rat
import Mathlib.Tactic.NormNum
import Mathlib.Tactic.IntervalCases

/-!
C105: `check_licq` of a QP description.
-/

namespace Acados.QpLicq

section
variable {K : Type*} [Field K] [LinearOrder K]

/-- **C105.** For plain stages the check succeeds exactly if the gradients of the active constraints
of every stage but the terminal one are linearly independent, each stage on its own; the dynamics
have no effect. -/
theorem C105_licq_stages_partial (N : ℕ) (st : ℕ → St K) (h : ∀ k < N, (st k).Plain) :
    checkLicq N st = some true ↔ ∀ k < N, (st k).Indep := by
  unfold checkLicq
  rw [Regularity.loop_true]
  refine ⟨fun hh k hk => ?_, fun hh k hk => ?_⟩
  · have := hh k (List.mem_range.2 hk)
    rw [check_plain (h k hk)] at this
    simpa using this
  · have hk' := List.mem_range.1 hk
    rw [check_plain (h k hk')]
    simpa using hh k hk'

/-- **C105.** For plain stages there are no exceptions, and LICQ is not denied if it holds. -/
theorem C105_licq_denied_partial (N : ℕ) (st : ℕ → St K) (h : ∀ k < N, (st k).Plain) :
    checkLicq N st ≠ none ∧ (checkLicq N st = some false → ¬ Licq N st) := by
  constructor
  · unfold checkLicq
    have : ∀ l : List ℕ, (∀ k ∈ l, k < N) →
        Regularity.loop (fun k => (st k).check) l ≠ none := by
      intro l hl
      induction l with
      | nil => simp [Regularity.loop]
      | cons k ks ih =>
        unfold Regularity.loop
        rw [check_plain (h k (hl k (by simp)))]
        simp only [Option.bind_some]
        split
        · exact ih fun j hj => hl j (by simp [hj])
        · simp
    exact this _ fun k hk => List.mem_range.1 hk
  · intro hf hl
    obtain ⟨k, hk, hc⟩ := loop_false hf
    have hk' := List.mem_range.1 hk
    rw [check_plain (h k hk')] at hc
    have hn : ¬ (st k).Indep := by simpa using hc
    apply hn
    intro μ hs hq p
    have := (hl (fun _ _ => 0) (fun j p => if j = k then μ p else 0)
      (fun j _ p hp => by
        by_cases hj : j = k
        · subst hj
          simp only [if_true] at hp
          exact hs p hp
        · simp [hj] at hp)
      (fun j _ q hjq => by
        have h1 : (if j < N then (st j).dynComb (fun _ => (0 : K)) q else 0) = 0 := by
          split
          · simp [St.dynComb]
          · rfl
        rw [h1]
        by_cases hj : j = k
        · subst hj
          have := hq q hjq
          simpa using this
        · simp [hj, St.comb])).2 k (le_of_lt hk') p
    simpa using this

/-- **C105.** If the check succeeds, active constraints depend on controls only and none is active at
the terminal stage, then LICQ holds. -/
theorem C105_licq_controls_partial (N : ℕ) (st : ℕ → St K) (h : ∀ k < N, (st k).Plain)
    (hd : ∀ k < N, (st k).nxn = (st (k + 1)).nx)
    (hu : ∀ k ≤ N, ∀ p ∈ (st k).cons, (st k).Active p → ∀ q < (st k).nx, (st k).grad p q = 0)
    (ht : ∀ p ∈ (st N).cons, ¬ (st N).Active p) (hc : checkLicq N st = some true) : Licq N st := by
  have hi := (C105_licq_stages_partial N st h).1 hc
  intro π μ hs hq
  have hcomb : ∀ k ≤ N, ∀ q < (st k).nx, (st k).comb (μ k) q = 0 := by
    intro k hk q hqx
    refine sum_zero _ _ fun p _ => ?_
    by_cases hm : μ k p = 0
    · rw [hm, zero_mul]
    · obtain ⟨h1, h2⟩ := hs k hk p hm
      rw [hu k hk p h1 h2 q hqx, mul_zero]
  have hdyn0 : ∀ k q, (∀ r < (st k).nxn, π k r = 0) → (st k).dynComb (π k) q = 0 := by
    intro k q hz
    refine Finset.sum_eq_zero fun r hr => ?_
    rw [hz r (Finset.mem_range.1 hr), zero_mul]
  have hπ : ∀ d k, k + d + 1 = N → ∀ r < (st k).nxn, π k r = 0 := by
    intro d
    induction d with
    | zero =>
      intro k hk r hr
      rw [hd k (by omega)] at hr
      have := hq (k + 1) (by omega) r (by omega)
      rw [hcomb (k + 1) (by omega) r hr, if_neg (by omega), if_pos ⟨by omega, hr⟩,
        Nat.add_sub_cancel] at this
      simpa using this
    | succ d ih =>
      intro k hk r hr
      rw [hd k (by omega)] at hr
      have := hq (k + 1) (by omega) r (by omega)
      rw [hcomb (k + 1) (by omega) r hr, if_pos (by omega),
        hdyn0 (k + 1) r (ih (k + 1) (by omega)), if_pos ⟨by omega, hr⟩,
        Nat.add_sub_cancel] at this
      simpa using this
  have hπ' : ∀ k < N, ∀ r < (st k).nxn, π k r = 0 := fun k hk => hπ (N - 1 - k) k (by omega)
  refine ⟨hπ', fun k hk p => ?_⟩
  rcases Nat.lt_or_ge k N with hlt | hge
  · refine hi k hlt (μ k) (hs k hk) (fun q hqk => ?_) p
    rcases Nat.lt_or_ge q (st k).nx with hx | hx
    · exact hcomb k hk q hx
    · have := hq k hk q hqk
      rw [if_pos hlt, hdyn0 k q (hπ' k hlt), if_neg (by omega)] at this
      simpa using this
  · obtain rfl : k = N := by omega
    by_contra hne
    obtain ⟨h1, h2⟩ := hs k hk p hne
    exact ht p h1 h2

/-- **C105.** A bound on a state whose documented index, in `[u; x]`, is not smaller than the number
of states makes the check raise an exception. -/
theorem C105_licq_index (N : ℕ) (st : ℕ → St K) (hN : 0 < N) (j : ℕ) (hj : j < (st 0).nbx)
    (hi : (st 0).nx ≤ (st 0).idxb j) : checkLicq N st = none := by
  obtain ⟨n, rfl⟩ : ∃ n, N = n + 1 := ⟨N - 1, by omega⟩
  unfold checkLicq
  rw [List.range_succ_eq_map]
  unfold Regularity.loop
  have : (st 0).check = none := by
    unfold St.check
    rw [if_neg]
    simp only [St.ok, Bool.and_eq_true, List.all_eq_true, List.mem_range, decide_eq_true_eq, not_and]
    intro h
    have := h.2 j hj
    omega
  rw [this]
  rfl

/-- **C105.** The check raises an exception if the number of states changes after the initial
stage. -/
theorem C105_licq_nx (N : ℕ) (st : ℕ → St K) (hN : 0 < N) (h : (st 0).nxn ≠ (st 0).nx) :
    checkLicq N st = none := by
  obtain ⟨n, rfl⟩ : ∃ n, N = n + 1 := ⟨N - 1, by omega⟩
  unfold checkLicq
  rw [List.range_succ_eq_map]
  unfold Regularity.loop
  have : (st 0).check = none := by
    unfold St.check
    rw [if_neg]
    simp only [St.ok, Bool.and_eq_true, beq_iff_eq]
    exact fun hh => h hh.1.1
  rw [this]
  rfl

end

/-! ### Examples -/

/-- One state, one control, `x⁺ = x`, the constraint `x ≥ 0`, active at zero. -/
def exSt : St ℚ where
  nx := 1
  nu := 1
  nxn := 1
  nbx := 0
  nbu := 0
  ng := 1
  A := fun _ _ => 1
  B := fun _ _ => 0
  C := fun _ _ => 1
  D := fun _ _ => 0
  idxb := fun j => j
  lbx := fun _ => 0
  ubx := fun _ => 0
  lbu := fun _ => 0
  ubu := fun _ => 0
  lg := fun _ => 0
  ug := fun _ => 5
  x := fun _ => 0
  u := fun _ => 0

theorem exSt_plain : exSt.Plain :=
  ⟨rfl, Nat.zero_le _, fun j hj => absurd hj (Nat.not_lt_zero j), Or.inl rfl⟩

theorem exSt_indep : exSt.Indep := by
  intro μ hs hq p
  by_contra hne
  obtain ⟨hp, -⟩ := hs p hne
  have hcons : exSt.cons = [.g 0] := rfl
  rw [hcons, List.mem_singleton] at hp
  subst hp
  apply hne
  have := hq 0 (by decide)
  simpa [St.comb, St.cons, List.range_succ, St.grad, exSt] using this

theorem exSt_active : exSt.Active (.g 0) := by
  left
  simp [near, St.value, St.lo, exSt]

/-- A bound on the control, active at zero. -/
def exCtl : St ℚ := { exSt with ng := 0, nbu := 1 }

/-- The hypotheses of `C105_licq_controls_partial` are met. -/
example : Licq 1 (fun k => if k = 0 then exCtl else { exSt with ng := 0 }) := by
  have hp : exCtl.Plain :=
    ⟨rfl, le_refl 1, fun j _ => rfl, Or.inl rfl⟩
  have hcons : exCtl.cons = [.bu 0] := rfl
  have hpl : ∀ k < 1, (if k = 0 then exCtl else { exSt with ng := 0 } : St ℚ).Plain := by
    intro k hk
    obtain rfl : k = 0 := by omega
    exact hp
  refine C105_licq_controls_partial 1 _ hpl (fun k hk => ?_) (fun k hk p hp' _ q hq => ?_)
    (fun p hp' => by cases hp')
    ((C105_licq_stages_partial 1 _ hpl).2 fun k hk μ hs hq p => ?_)
  · obtain rfl : k = 0 := by omega
    rfl
  · rcases (by omega : k = 0 ∨ k = 1) with rfl | rfl
    · have hm : p ∈ exCtl.cons := hp'
      rw [hcons, List.mem_singleton] at hm
      subst hm
      have hq' : q < 1 := hq
      obtain rfl : q = 0 := by omega
      simp [St.grad, exCtl, exSt]
    · cases hp'
  · obtain rfl : k = 0 := by omega
    by_contra hne
    have hm : p ∈ exCtl.cons := (hs p hne).1
    rw [hcons, List.mem_singleton] at hm
    subst hm
    apply hne
    have := hq 1 (by decide)
    simpa [St.comb, St.cons, List.range_succ, St.grad, exCtl, exSt] using this

/-- The same constraint twice. -/
def exTwice : St ℚ := { exSt with ng := 2 }

/-- The check fails for a constraint that is given twice. -/
example : checkLicq 1 (fun _ => exTwice) = some false ∧ ∀ k < 1, ((fun _ => exTwice) k : St ℚ).Plain := by
  have hp : exTwice.Plain :=
    ⟨rfl, Nat.zero_le _, fun j hj => absurd hj (Nat.not_lt_zero j), Or.inl rfl⟩
  have hcons : exTwice.cons = [.g 0, .g 1] := rfl
  refine ⟨?_, fun _ _ => hp⟩
  have hn : ¬ exTwice.Indep := by
    intro h
    have h1 := h (fun p => if p = .g 0 then 1 else if p = .g 1 then -1 else 0) (fun p hp' => ?_)
      (fun q hq => ?_) (.g 0)
    · simp at h1
    · have hm : p = .g 0 ∨ p = .g 1 := by
        by_contra hc
        rw [not_or] at hc
        simp [hc.1, hc.2] at hp'
      refine ⟨by rw [hcons]; simpa using hm, Or.inl ?_⟩
      rcases hm with rfl | rfl <;> simp [near, St.value, St.lo, exTwice, exSt]
    · simp [St.comb, St.cons, List.range_succ, St.grad, exTwice, exSt]
  unfold checkLicq
  simp [List.range_succ, Regularity.loop, check_plain hp, hn]

/-- **C105.** LICQ is reported although it does not hold: the terminal stage is not checked and the
dynamics determine the state of the next stage. -/
theorem C105_licq_false : ∃ (N : ℕ) (st : ℕ → St ℚ), (∀ k ≤ N, (st k).Plain) ∧
    checkLicq N st = some true ∧ ¬ Licq N st := by
  refine ⟨1, fun _ => exSt, fun _ _ => exSt_plain,
    (C105_licq_stages_partial 1 _ fun _ _ => exSt_plain).2 fun _ _ => exSt_indep, fun h => ?_⟩
  have hcons : exSt.cons = [.g 0] := rfl
  have := (h (fun _ _ => 1) (fun k p => if p = .g 0 then (if k = 0 then -1 else 1) else 0)
    (fun k _ p hp => ?_) (fun k hk q hq => ?_)).1 0 (by decide) 0 (by decide)
  · simp at this
  · have hm : p = .g 0 := by
      by_contra hc
      simp [hc] at hp
    subst hm
    exact ⟨by rw [hcons]; simp, exSt_active⟩
  · have hq' : q < 2 := hq
    interval_cases k <;> interval_cases q <;>
      simp [St.comb, St.cons, List.range_succ, St.grad, St.dynComb, exSt]

/-- A bound on the state with its documented index. -/
def exIdx : St ℚ := { exSt with nbx := 1, ng := 0, idxb := fun _ => 1 }

/-- **C105.** The check raises an exception for a QP with one state and one control and a bound on
the state, for which LICQ holds. -/
theorem C105_licq_index_false : ∃ (N : ℕ) (st : ℕ → St ℚ), Licq N st ∧ checkLicq N st = none := by
  refine ⟨1, fun k => if k = 0 then exIdx else { exSt with ng := 0 }, ?_,
    C105_licq_index 1 _ (by decide) 0 (by decide) (by decide)⟩
  intro π μ hs hq
  have hc0 : exIdx.cons = [.bx 0] := rfl
  have hc1 : ({ exSt with ng := 0 } : St ℚ).cons = [] := rfl
  have h1 : π 0 0 = 0 := by
    have := hq 1 (by decide) 0 (by decide)
    simpa [St.comb, St.cons, List.range_succ, exSt] using this
  have h0 : μ 0 (.bx 0) = 0 := by
    have := hq 0 (by decide) 0 (by decide)
    simpa [St.comb, St.cons, List.range_succ, St.grad, exIdx, exSt, St.dynComb, h1] using this
  refine ⟨fun k hk r hr => ?_, fun k hk p => ?_⟩
  · obtain rfl : k = 0 := by omega
    have hr' : r < 1 := hr
    obtain rfl : r = 0 := by omega
    exact h1
  · by_contra hne
    have hp := (hs k hk p hne).1
    rcases (by omega : k = 0 ∨ k = 1) with rfl | rfl
    · simp only [if_true] at hp
      rw [hc0, List.mem_singleton] at hp
      subst hp
      exact hne h0
    · simp only [one_ne_zero, if_false] at hp
      rw [hc1] at hp
      cases hp

end Acados.QpLicq
