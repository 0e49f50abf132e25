import Verif.Lemmas.Funnel
/-!
# Properties C09–C12: funnel globalization

All statements are about `Opts.default`/`Opts.setAll` (what the user can configure),
`initializeMemory` (start of a solve), `findAcceptable` (one globalization call) and `runCalls`
(the calls of one solve).  The trial oracle is arbitrary.
-/
namespace Acados.Funnel

variable {K : Type*} [Field K] [LinearOrder K] [IsStrictOrderedRing K] {X : Type*}

/-- Option values reachable through the public setters. -/
def UserOpts (o : Opts K) : Prop := ∃ l, (Opts.default : Opts K).setAll l = some o

/-- state of the solver when the iterations of a solve start: the memory may contain anything
(e.g. left-overs of earlier solves) before `initializeMemory` -/
def start (o : Opts K) (x : X) (garbage : Mem K) (n : NlpMem K) (infeas : K) : St X K :=
  { x := x, mem := initializeMemory o garbage n infeas, nlp := n }

/-- the trial infeasibilities are nonnegative (they are l1 norms, see C31) -/
def NonnegTrials (cs : List (Call X K)) : Prop := ∀ c ∈ cs, ∀ j a, 0 ≤ (c.trial j a).infeas

/-! ## helper: one step -/

theorem step_facts {o : Opts K} (hv : Valid o) {s s' : St X K} {po pi : K}
    {trial : Nat → K → Trial X K} {fuel : Nat} (hnn : ∀ j a, 0 ≤ (trial j a).infeas)
    (hw : 0 < s.mem.width) (h : findAcceptable o s po pi trial fuel = some (.success, s')) :
    0 < s'.mem.width ∧ s'.mem.width ≤ s.mem.width ∧ 0 ≤ s'.mem.l1 ∧
    (o.meritOnly = false → s'.mem.l1 ≤ s'.mem.width ∧ s'.mem.l1 ≤ s.mem.width) ∧
    (s'.mem.width = s.mem.width ∨ s'.mem.width ≤ rho o * s.mem.width) := by
  obtain ⟨i, m1, m2, hm1, hacc, rfl⟩ := findAcceptable_success h
  have hw1 : m1.width = s.mem.width := by
    rcases hm1 with rfl | rfl
    · rfl
    · split <;> rfl
  have hti := hnn i (o.alphaReduction ^ i)
  generalize (trial i (o.alphaReduction ^ i)).infeas = ti at *
  generalize (trial i (o.alphaReduction ^ i)).cost = tc at *
  have k0 := hv.k0; have k1 := hv.k1; have d0 := hv.sd0; have d1 := hv.sd1
  have dec : ti ≤ o.sufficientDecrease * m1.width →
      0 < (1 - o.kappa) * ti + o.kappa * m1.width ∧
      (1 - o.kappa) * ti + o.kappa * m1.width ≤ s.mem.width ∧
      ti ≤ (1 - o.kappa) * ti + o.kappa * m1.width ∧ ti ≤ s.mem.width ∧
      (1 - o.kappa) * ti + o.kappa * m1.width ≤ rho o * s.mem.width := by
    intro hsd
    rw [hw1] at hsd ⊢
    have h1 : o.sufficientDecrease * s.mem.width ≤ s.mem.width := by nlinarith
    have h2 : ti ≤ s.mem.width := hsd.trans h1
    have h3 : (1 - o.kappa) * ti ≤ (1 - o.kappa) * (o.sufficientDecrease * s.mem.width) :=
      mul_le_mul_of_nonneg_left hsd (by linarith)
    have h4 : 0 ≤ (1 - o.kappa) * ti := mul_nonneg (by linarith) hti
    have h5 : 0 < o.kappa * s.mem.width := mul_pos k0 hw
    refine ⟨by linarith, by nlinarith, by nlinarith, h2, ?_⟩
    unfold rho; nlinarith
  cases hacc with
  | f hin hpm hmo hsw har hm =>
    subst hm; simp only [hw1] at hin ⊢
    exact ⟨hw, le_refl _, hti, fun _ => ⟨hin, hin⟩, by simp⟩
  | h hin hpm hmo hsw hsd hm =>
    subst hm
    obtain ⟨a1, a2, a3, a4, a5⟩ := dec hsd
    exact ⟨a1, a2, hti, fun _ => ⟨a3, a4⟩, .inr a5⟩
  | b hin hpm hmo hsw hsd hlt har hm =>
    subst hm; simp only [hw1] at hin ⊢
    exact ⟨hw, le_refl _, hti, fun _ => ⟨hin, hin⟩, by simp⟩
  | p hin hpm har hsd hm =>
    subst hm; simp only [hw1] at hin ⊢
    exact ⟨hw, le_refl _, hti, fun hmo => by simpa [hmo] using hin, by simp⟩
  | pd hin hpm har hsd hm =>
    subst hm
    obtain ⟨a1, a2, a3, a4, a5⟩ := dec hsd
    exact ⟨a1, a2, hti, fun _ => ⟨a3, a4⟩, .inr a5⟩

/-- number of strict width changes along a trajectory starting at width `w` -/
def changes (w : K) : List (St X K) → Nat
  | [] => 0
  | s :: t => (if s.mem.width = w then 0 else 1) + changes s.mem.width t

theorem runCalls_facts {o : Opts K} (hv : Valid o) {fuel : Nat} :
    ∀ (cs : List (Call X K)) (s : St X K) (traj : List (St X K)), NonnegTrials cs →
    0 < s.mem.width → runCalls o fuel s cs = some traj →
    (s :: traj).Pairwise (fun a b => b.mem.width ≤ a.mem.width) ∧
    (∀ a ∈ traj, 0 < a.mem.width ∧ 0 ≤ a.mem.l1 ∧
      (o.meritOnly = false → a.mem.l1 ≤ a.mem.width)) ∧
    (∀ a ∈ traj.getLast?, a.mem.width ≤ rho o ^ changes s.mem.width traj * s.mem.width) := by
  intro cs
  induction cs with
  | nil =>
    intro s traj _ _ h
    simp only [runCalls, Option.some.injEq] at h
    subst h; simp
  | cons c t ih =>
    intro s traj hnn hw h
    simp only [runCalls] at h
    split at h
    · simp at h
    · next st s' hf =>
      split at h
      · next hst =>
        split at h
        · simp at h
        · next l hl =>
          simp only [Option.some.injEq] at h
          subst h
          subst hst
          obtain ⟨b1, b2, b3, b4, b5⟩ := step_facts hv (hnn c (by simp)) hw hf
          obtain ⟨c1, c2, c3⟩ := ih s' l (fun c hc => hnn c (by simp [hc])) b1 hl
          refine ⟨?_, ?_, ?_⟩
          · rw [List.pairwise_cons]
            refine ⟨?_, c1⟩
            intro a ha
            rcases List.mem_cons.1 ha with rfl | ha
            · exact b2
            · exact ((List.pairwise_cons.1 c1).1 a ha).trans b2
          · intro a ha
            rcases List.mem_cons.1 ha with rfl | ha
            · exact ⟨b1, b3, fun hm => (b4 hm).1⟩
            · exact c2 a ha
          · intro a ha
            have hr := rho_pos hv
            have key : s'.mem.width ≤
                rho o ^ (if s'.mem.width = s.mem.width then 0 else 1) * s.mem.width := by
              rcases b5 with e | e
              · simp [e]
              · split
                · next e' => simp [e']
                · simpa using e
            have hlast : a.mem.width ≤ rho o ^ changes s'.mem.width l * s'.mem.width := by
              cases l with
              | nil =>
                simp only [List.getLast?_singleton, Option.mem_def, Option.some.injEq] at ha
                subst ha; simp [changes]
              | cons y ys =>
                rw [List.getLast?_cons_cons] at ha
                exact c3 a ha
            simp only [changes]
            rw [Nat.add_comm, pow_add, mul_assoc]
            exact hlast.trans (mul_le_mul_of_nonneg_left key (pow_nonneg hr.le _))
      · simp only [Option.some.injEq] at h
        subst h; simp

/-! ## C09 -/

/-- **C09** (start of a solve).  With options from the setters, whatever the memory contained
before, the initial width is positive, at least the configured upper bound and at least the
initial infeasibility. -/
theorem C09_initial_width (o : Opts K) (ho : UserOpts o) (x : X) (g : Mem K) (n : NlpMem K)
    (infeas : K) (hi : 0 ≤ infeas) :
    0 < (start o x g n infeas).mem.width ∧ o.upperBound ≤ (start o x g n infeas).mem.width ∧
    infeas ≤ (start o x g n infeas).mem.width ∧ (start o x g n infeas).mem.l1 = infeas := by
  obtain ⟨l, hl⟩ := ho
  have hv := valid_setAll valid_default l hl
  have hub := hv.ub
  have hinc := hv.inc
  simp only [start, initializeMemory, initialWidth, cmax_eq_max]
  refine ⟨lt_of_lt_of_le hub (le_max_left _ _), le_max_left _ _, ?_, trivial⟩
  refine le_trans ?_ (le_max_right _ _)
  nlinarith

/-- **C09** (every sequence of globalization calls of a solve).  The width stays positive and is
non-increasing along the accepted iterates (any two states of the trajectory, in order), each
accepted iterate has a nonnegative infeasibility inside the funnel (unless merit-only), and
after `k` width changes the width is at most `ρ^k` times the initial one with
`ρ = κ + (1-κ)·sufficient_decrease_factor < 1`. -/
theorem C09_width_along_solve (o : Opts K) (ho : UserOpts o) (x : X) (g : Mem K) (n : NlpMem K)
    (infeas : K) (hi : 0 ≤ infeas) (fuel : Nat) (cs : List (Call X K)) (hcs : NonnegTrials cs)
    (traj : List (St X K)) (h : runCalls o fuel (start o x g n infeas) cs = some traj) :
    (start o x g n infeas :: traj).Pairwise (fun a b => b.mem.width ≤ a.mem.width) ∧
    (∀ a ∈ traj, 0 < a.mem.width ∧ 0 ≤ a.mem.l1 ∧
      (o.meritOnly = false → a.mem.l1 ≤ a.mem.width)) ∧
    (0 < o.kappa + (1 - o.kappa) * o.sufficientDecrease ∧
      o.kappa + (1 - o.kappa) * o.sufficientDecrease < 1) ∧
    (∀ a ∈ traj.getLast?, a.mem.width ≤
      (o.kappa + (1 - o.kappa) * o.sufficientDecrease) ^
        changes (start o x g n infeas).mem.width traj * (start o x g n infeas).mem.width) := by
  obtain ⟨hw, _, _, _⟩ := C09_initial_width o ho x g n infeas hi
  obtain ⟨l, hl⟩ := ho
  have hv := valid_setAll valid_default l hl
  obtain ⟨a1, a2, a3⟩ := runCalls_facts hv cs _ traj hcs hw h
  exact ⟨a1, a2, ⟨rho_pos hv, rho_lt_one hv⟩, a3⟩

/-! ## C10 -/

/-- Armijo-type condition, written out -/
def Armijo (eps alpha actual pred : K) : Prop := actual ≥ eps * alpha * max 0 (pred - 1 / 1000000000)

/-- **C10**: an accepted iterate is the trial point of some step size `α = reduction^j`, lies in
the funnel of the state before the call (unless merit-only), and made progress in one of the three
senses.  `μ` is the penalty parameter in use after the call. -/
theorem C10_accepted_progress (o : Opts K) (s s' : St X K) (po pi : K)
    (trial : Nat → K → Trial X K) (fuel : Nat)
    (h : findAcceptable o s po pi trial fuel = some (.success, s')) :
    ∃ j : Nat, ∃ al t, al = o.alphaReduction ^ j ∧ t = trial j al ∧
      s'.x = t.x ∧ s'.nlp.costValue = t.cost ∧ s'.mem.l1 = t.infeas ∧ s'.mem.alpha = al ∧
      (o.meritOnly = false → t.infeas ≤ s.mem.width) ∧
      ((al * po ≥ o.fractionSwitching * pi ∧
          Armijo o.epsSufficientDescent al (s.nlp.costValue - t.cost) po) ∨
       (t.infeas ≤ o.sufficientDecrease * s.mem.width) ∨
       (let μ := s'.nlp.objMult
        Armijo o.epsSufficientDescent al
          ((μ * s.nlp.costValue + s.mem.l1) - (μ * t.cost + t.infeas)) (μ * po + pi))) := by
  obtain ⟨i, m1, m2, hm1, hacc, rfl⟩ := findAcceptable_success h
  have hw1 : m1.width = s.mem.width := by
    rcases hm1 with rfl | rfl
    · rfl
    · split <;> rfl
  refine ⟨i, _, _, rfl, rfl, rfl, rfl, rfl, rfl, ?_, ?_⟩
  · intro hmo
    cases hacc <;> simp_all
  · simp only [startCtx] at hacc
    cases hacc with
    | f hin hpm hmo hsw har hm => exact .inl ⟨hsw, har⟩
    | h hin hpm hmo hsw hsd hm => exact .inr (.inl (hw1 ▸ hsd))
    | b hin hpm hmo hsw hsd hlt har hm => exact .inr (.inr har)
    | p hin hpm har hsd hm => exact .inr (.inr har)
    | pd hin hpm har hsd hm => exact .inr (.inr har)

/-- **C10** (exact decision rule of a single test, outside merit-only mode). -/
theorem C10_decision_rule (o : Opts K) (c : Ctx K) (m : Mem K) (al tc ti : K)
    (hmo : o.meritOnly = false) :
    (acceptable o c m al tc ti).1 = true ↔
      ti ≤ m.width ∧
      (if m.penaltyMode then
        Armijo o.epsSufficientDescent al (c.curMerit - (c.penalty * tc + ti))
          (c.penalty * c.predObj + c.predInf)
       else if al * c.predObj ≥ o.fractionSwitching * c.predInf then
        Armijo o.epsSufficientDescent al (c.curCost - tc) c.predObj
       else ti ≤ o.sufficientDecrease * m.width ∨
        (ti < c.curInf ∧ Armijo o.epsSufficientDescent al (c.curMerit - (c.penalty * tc + ti))
          (c.penalty * c.predObj + c.predInf))) := by
  have e : (acceptable o c m al tc ti).1 = true ↔ ∃ m', acceptable o c m al tc ti = (true, m') := by
    constructor
    · intro h; exact ⟨_, Prod.ext h rfl⟩
    · rintro ⟨m', h⟩; rw [h]
  rw [e]
  unfold Armijo
  constructor
  · rintro ⟨m', h⟩
    rw [acceptable_iff] at h
    cases h with
    | f hin hpm hmo hsw har hm => simp [hin, hpm, hsw]; simpa using har
    | h hin hpm hmo hsw hsd hm => simp [hin, hpm, not_le.2 hsw, hsd]
    | b hin hpm hmo hsw hsd hlt har hm =>
      simp only [hin, hpm, hlt, true_and, Bool.false_eq_true, if_false, ge_iff_le, not_le.2 hsw]
      exact .inr har
    | p hin hpm har hsd hm =>
      simp only [hmo, Bool.false_eq_true, false_or, or_false] at hin hpm
      simp only [hin, hpm, true_and, if_true]; exact har
    | pd hin hpm har hsd hm =>
      simp only [hmo, Bool.false_eq_true, false_or, or_false] at hin hpm
      simp only [hin, hpm, true_and, if_true]; exact har
  · rintro ⟨hin, h⟩
    simp only [acceptable_iff]
    split at h
    · next hpm =>
      by_cases hsd : ti ≤ o.sufficientDecrease * m.width
      · exact ⟨_, .pd (.inr hin) (.inl hpm) h hsd rfl⟩
      · exact ⟨_, .p (.inr hin) (.inl hpm) h (not_le.1 hsd) rfl⟩
    · next hpm =>
      have hpm : m.penaltyMode = false := by simpa using hpm
      split at h
      · next hsw => exact ⟨_, .f hin hpm hmo hsw h rfl⟩
      · next hsw =>
        have hsw := not_le.1 hsw
        by_cases hsd : ti ≤ o.sufficientDecrease * m.width
        · exact ⟨_, .h hin hpm hmo hsw hsd rfl⟩
        · rcases h with h | h
          · exact absurd h hsd
          · exact ⟨_, .b hin hpm hmo hsw (not_le.1 hsd) h.1 h.2 rfl⟩

/-- **C10** (consequence): with a nonnegative descent parameter and reduction factor, an accepted
step outside merit-only mode does not increase the objective, or it does not increase the penalty
function, or it brings the infeasibility strictly below the funnel width by the factor. -/
theorem C10_never_both_worse (o : Opts K) (s s' : St X K) (po pi : K)
    (trial : Nat → K → Trial X K) (fuel : Nat) (he : 0 ≤ o.epsSufficientDescent)
    (hr : 0 ≤ o.alphaReduction)
    (h : findAcceptable o s po pi trial fuel = some (.success, s')) :
    s'.nlp.costValue ≤ s.nlp.costValue ∨ s'.mem.l1 ≤ o.sufficientDecrease * s.mem.width ∨
    s'.nlp.objMult * s'.nlp.costValue + s'.mem.l1 ≤ s'.nlp.objMult * s.nlp.costValue + s.mem.l1 := by
  obtain ⟨j, al, t, hal, ht, hx, hc, hl, _, _, hcase⟩ := C10_accepted_progress o s s' po pi trial fuel h
  have hal0 : 0 ≤ al := hal ▸ pow_nonneg hr j
  rw [hc, hl]
  have hnn : ∀ y : K, 0 ≤ o.epsSufficientDescent * al * max 0 y := fun y =>
    mul_nonneg (mul_nonneg he hal0) (le_max_left _ _)
  rcases hcase with ⟨_, ha⟩ | hs | ha
  · left; unfold Armijo at ha
    have := hnn (po - 1 / 1000000000); linarith
  · exact .inr (.inl hs)
  · right; right
    simp only [Armijo] at ha
    have := hnn (s'.nlp.objMult * po + pi - 1 / 1000000000); linarith

/-! ## C11 -/

/-- **C11** (range): the penalty parameter stays in `[0, previous value]`. -/
theorem C11_penalty_range (o : Opts K) (ho : UserOpts o) (p po pi : K) (hp : 0 ≤ p) :
    0 ≤ updatePenalty o p po pi ∧ updatePenalty o p po pi ≤ p := by
  obtain ⟨l, hl⟩ := ho
  have hv := valid_setAll valid_default l hl
  unfold updatePenalty
  simp only [lit_zero, lit_one_one, cmax_eq_max, cmin_eq_min, hv.pc]
  split
  · split
    · exact ⟨le_max_left _ _, max_le hp ((min_le_left _ _).trans (by linarith))⟩
    · exact ⟨hp, le_refl _⟩
  · split
    · exact ⟨le_max_left _ _, max_le hp ((min_le_left _ _).trans (by linarith))⟩
    · exact ⟨hp, le_refl _⟩

/-- **C11** (over a solve): along every sequence of calls the penalty parameter is nonnegative and
non-increasing, starting from a nonnegative objective multiplier (the solver sets 1). -/
theorem C11_penalty_along_solve (o : Opts K) (ho : UserOpts o) (fuel : Nat) :
    ∀ (cs : List (Call X K)) (s : St X K) (traj : List (St X K)), 0 ≤ s.nlp.objMult →
    runCalls o fuel s cs = some traj →
    (∀ a ∈ traj, 0 ≤ a.nlp.objMult) ∧
    (s :: traj).Pairwise (fun a b => b.nlp.objMult ≤ a.nlp.objMult) := by
  intro cs
  induction cs with
  | nil =>
    intro s traj _ h
    simp only [runCalls, Option.some.injEq] at h
    subst h; simp
  | cons c t ih =>
    intro s traj hp h
    simp only [runCalls] at h
    split at h
    · simp at h
    · next st s' hf =>
      split at h
      · next hst =>
        split at h
        · simp at h
        · next l hl =>
          simp only [Option.some.injEq] at h
          subst h; subst hst
          obtain ⟨i, m1, m2, hm1, hacc, hs'⟩ := findAcceptable_success hf
          have hr := C11_penalty_range o ho s.nlp.objMult c.predObj c.predInf hp
          have e : s'.nlp.objMult = updatePenalty o s.nlp.objMult c.predObj c.predInf := by rw [hs']
          obtain ⟨c1, c2⟩ := ih s' l (e ▸ hr.1) hl
          refine ⟨?_, ?_⟩
          · intro a ha
            rcases List.mem_cons.1 ha with rfl | ha
            · exact e ▸ hr.1
            · exact c1 a ha
          · rw [List.pairwise_cons]
            refine ⟨?_, c2⟩
            intro a ha
            rcases List.mem_cons.1 ha with rfl | ha
            · exact e ▸ hr.2
            · exact ((List.pairwise_cons.1 c2).1 a ha).trans (e ▸ hr.2)
      · simp only [Option.some.injEq] at h
        subst h; simp

/-- **C11** (only as much as needed): if the old parameter already gives the required predicted
reduction, it is kept. -/
theorem C11_unchanged_if_sufficient (o : Opts K) (p po pi : K) (hp : 0 ≤ p)
    (h : p * po + pi ≥ o.penaltyEta * pi) : updatePenalty o p po pi = p := by
  unfold updatePenalty
  simp only [lit_zero]
  split
  · next hpo =>
    rw [if_neg]
    rw [not_lt]
    have : p * po ≤ 0 := mul_nonpos_of_nonneg_of_nonpos hp hpo.1.le
    linarith [mul_zero p]
  · rw [if_neg (not_lt.2 h)]

/-- **C11** (sufficient predicted reduction, partial): the predicted reduction of the penalty
function is at least `penalty_eta` times the predicted infeasibility reduction, up to `1e-4·p'`;
and exactly so when the predicted objective change is outside the "noise window" `(-1e-4, 0)`.
Missing compared to the full claim: inside the noise window the code treats the predicted objective
change as zero, see `C11_noise_window_counterexample`. -/
theorem C11_predicted_reduction_partial (o : Opts K) (ho : UserOpts o) (p po pi : K) (hp : 0 ≤ p)
    (hpi : 0 ≤ pi) :
    updatePenalty o p po pi * po + pi ≥
      o.penaltyEta * pi - 1 / 10000 * updatePenalty o p po pi ∧
    (¬ (-(1 / 10000) < po ∧ po < 0) →
      updatePenalty o p po pi * po + pi ≥ o.penaltyEta * pi) := by
  have hr := C11_penalty_range o ho p po pi hp
  obtain ⟨l, hl⟩ := ho
  have hv := valid_setAll valid_default l hl
  have he1 : o.penaltyEta < 1 := by rw [hv.pe]; norm_num
  have hl4 : (lit 1 10000 : K) = 1 / 10000 := by simp [lit]
  -- the exact claim for the clamped prediction
  have main : ∀ q : K, (q ≤ -(1 / 10000) ∨ 0 ≤ q) →
      let r := if p * q + pi < o.penaltyEta * pi then
        max 0 (min (o.penaltyContraction * p) (((1 - o.penaltyEta) * pi) / (-q + lit 1 1000000000)))
        else p
      r * q + pi ≥ o.penaltyEta * pi := by
    intro q hq r
    by_cases hc : p * q + pi < o.penaltyEta * pi
    · have hq' : q < 0 := by
        by_contra hq0
        have : 0 ≤ p * q := mul_nonneg hp (not_lt.1 hq0)
        nlinarith
      have hden : 0 < -q + lit 1 1000000000 := by
        have := lit_pos (K := K) (n := 1) (d := 1000000000) (by norm_num) (by norm_num)
        linarith
      have hX : 0 ≤ ((1 - o.penaltyEta) * pi) / (-q + lit 1 1000000000) :=
        div_nonneg (mul_nonneg (by linarith) hpi) hden.le
      have hrX : r ≤ ((1 - o.penaltyEta) * pi) / (-q + lit 1 1000000000) := by
        simp only [r, if_pos hc]
        exact max_le hX (min_le_right _ _)
      have h1 : r * (-q) ≤ (1 - o.penaltyEta) * pi := by
        have h2 : r * (-q) ≤ ((1 - o.penaltyEta) * pi) / (-q + lit 1 1000000000) * (-q) :=
          mul_le_mul_of_nonneg_right hrX (by linarith)
        refine h2.trans ?_
        rw [div_mul_eq_mul_div, div_le_iff₀ hden]
        have hN : 0 ≤ (1 - o.penaltyEta) * pi := mul_nonneg (by linarith) hpi
        have := lit_pos (K := K) (n := 1) (d := 1000000000) (by norm_num) (by norm_num)
        nlinarith
      linarith
    · simp only [r, if_neg hc]; exact not_lt.1 hc
  by_cases hw : po < 0 ∧ po > -(1 / 10000)
  · refine ⟨?_, fun h => absurd ⟨hw.2, hw.1⟩ h⟩
    have m := main 0 (.inr le_rfl)
    have e : updatePenalty o p po pi = (if p * 0 + pi < o.penaltyEta * pi then
        max 0 (min (o.penaltyContraction * p) (((1 - o.penaltyEta) * pi) / (-0 + lit 1 1000000000)))
        else p) := by
      unfold updatePenalty
      simp only [lit_zero, lit_one_one, cmax_eq_max, cmin_eq_min, hl4]
      rw [if_pos hw]
    rw [← e] at m
    simp only [mul_zero, zero_add] at m
    have := mul_le_mul_of_nonneg_left hw.2.le hr.1
    nlinarith
  · have hq : po ≤ -(1 / 10000) ∨ 0 ≤ po := by
      by_cases h0 : po < 0
      · left; by_contra h1; exact hw ⟨h0, not_le.1 h1⟩
      · right; exact not_lt.1 h0
    have m := main po hq
    have e : updatePenalty o p po pi = (if p * po + pi < o.penaltyEta * pi then
        max 0 (min (o.penaltyContraction * p) (((1 - o.penaltyEta) * pi) / (-po + lit 1 1000000000)))
        else p) := by
      unfold updatePenalty
      simp only [lit_zero, lit_one_one, cmax_eq_max, cmin_eq_min, hl4]
      rw [if_neg hw]
    rw [← e] at m
    refine ⟨?_, fun _ => m⟩
    have := hr.1
    linarith

/-- **C11 is false in the noise window**: with default options, penalty 1, predicted objective
change `-5e-5` and no predicted infeasibility change, the parameter stays 1 although 0 would give
the required (nonnegative) predicted reduction, and the predicted merit reduction is negative. -/
theorem C11_noise_window_counterexample :
    let o : Opts ℚ := Opts.default
    let p' := updatePenalty o 1 (-1 / 20000) 0
    p' = 1 ∧ p' * (-1 / 20000) + 0 < o.penaltyEta * 0 ∧ (0 : ℚ) * (-1 / 20000) + 0 ≥ o.penaltyEta * 0 := by
  decide +kernel

/-! ## C12 (funnel part) -/

/-- **C12** (termination): for `alpha_min > 0` and `alpha_reduction < 1` there is a number of
trials, depending only on these two options, after which every funnel line search has ended,
whatever the trial evaluations return. -/
theorem C12_funnel_terminates [Archimedean K] (aMin aRed : K) (h0 : 0 < aMin) (h2 : aRed < 1) :
    ∃ n : Nat, ∀ (o : Opts K), o.alphaMin = aMin → o.alphaReduction = aRed →
      ∀ (s : St X K) (po pi : K) (trial : Nat → K → Trial X K),
      ∃ r, findAcceptable o s po pi trial (n + 1) = some r := by
  obtain ⟨n, hn⟩ := exists_pow_lt_of_lt_one h0 h2
  refine ⟨n, fun o hm hr s po pi trial => ?_⟩
  unfold findAcceptable lineSearch
  simp only
  obtain ⟨r, hr'⟩ := lsLoop_terminates o (startCtx o s.mem s.nlp po pi) trial
    { s.nlp with objMult := (startCtx o s.mem s.nlp po pi).penalty } n 0 (lit 1 1)
    { s.mem with penalty := (startCtx o s.mem s.nlp po pi).penalty } (n + 1)
    (by rw [iterate_mul_pow, lit_one_one, one_mul, hr, hm]; exact hn) (by omega)
  rw [hr']
  exact ⟨_, rfl⟩

/-- **C12** (termination with NaN and infinities): the same for doubles with NaN/inf; only the two
options must be finite numbers in range. -/
theorem C12_funnel_terminates_nan (aMin aRed : ℚ) (h0 : 0 < aMin) (h2 : aRed < 1) :
    ∃ n : Nat, ∀ (o : Opts Dbl), o.alphaMin = .fin aMin → o.alphaReduction = .fin aRed →
      ∀ (s : St X Dbl) (po pi : Dbl) (trial : Nat → Dbl → Trial X Dbl),
      ∃ r, findAcceptable o s po pi trial (n + 1) = some r := by
  obtain ⟨n, hn⟩ := exists_pow_lt_of_lt_one h0 h2
  refine ⟨n, fun o hm hr s po pi trial => ?_⟩
  unfold findAcceptable lineSearch
  simp only
  have hit : ∀ k (a : ℚ), (fun x : Dbl => x * o.alphaReduction)^[k] (.fin a) = .fin (a * aRed ^ k) := by
    intro k
    induction k with
    | zero => intro a; simp
    | succ k ih =>
      intro a
      rw [Function.iterate_succ_apply]
      have : (Dbl.fin a) * o.alphaReduction = .fin (a * aRed) := by rw [hr]; rfl
      rw [this, ih]; congr 1; ring
  have h11 : (lit 1 1 : Dbl) = .fin 1 := by decide +kernel
  obtain ⟨r, hr'⟩ := lsLoop_terminates o (startCtx o s.mem s.nlp po pi) trial
    { s.nlp with objMult := (startCtx o s.mem s.nlp po pi).penalty } n 0 (lit 1 1)
    { s.mem with penalty := (startCtx o s.mem s.nlp po pi).penalty } (n + 1)
    (by
      rw [h11, hit, hm, one_mul]
      show Dbl.lt _ _ = true
      simp [Dbl.lt, hn]) (by omega)
  rw [hr']
  exact ⟨_, rfl⟩

/-- **C12** (failure): when the search does not succeed the status is MINSTEP and the user's
iterate, the cost value, the funnel width and the recorded infeasibility are what they were. -/
theorem C12_funnel_failure_leaves_iterate (o : Opts K) (s s' : St X K) (po pi : K)
    (trial : Nat → K → Trial X K) (fuel : Nat) (st : Status)
    (h : findAcceptable o s po pi trial fuel = some (st, s')) (hne : st ≠ .success) :
    st = .minStep ∧ s'.x = s.x ∧ s'.nlp.costValue = s.nlp.costValue ∧
      s'.mem.width = s.mem.width ∧ s'.mem.l1 = s.mem.l1 :=
  findAcceptable_fail h hne

theorem lsLoop_stuck (o : Opts K) (c : Ctx K) (trial : Nat → K → Trial X K) (nm : NlpMem K)
    (hmo : o.meritOnly = false) (w : K) (hout : ∀ j a, w < (trial j a).infeas)
    (hal : ∀ i : Nat, o.alphaMin ≤ o.alphaReduction ^ i) (fuel : Nat) : ∀ (i : Nat) (m : Mem K), m.width = w →
    lsLoop o c trial nm fuel i (o.alphaReduction ^ i) m = none := by
  induction fuel with
  | zero => intros; rfl
  | succ f ih =>
    intro i m hm
    simp only [lsLoop]
    rcases hacc : acceptable o c m (o.alphaReduction ^ i) (trial i (o.alphaReduction ^ i)).cost
      (trial i (o.alphaReduction ^ i)).infeas with ⟨b, m'⟩
    cases b with
    | true =>
      rw [acceptable_iff] at hacc
      have h1 := hout i (o.alphaReduction ^ i)
      exfalso
      have h2 : (trial i (o.alphaReduction ^ i)).infeas ≤ w := by cases hacc <;> simp_all
      exact absurd h2 (not_le.2 h1)
    | false =>
      have hm' := reject_mem o c m m' _ _ _ hacc
      rw [hmo] at hm'
      simp only [if_neg (not_lt.2 (hal i))]
      rw [← pow_succ]
      exact ih (i + 1) m' (by rw [hm']; simpa using hm)

/-- **C12 is false without the range restriction**: the setters accept `alpha_reduction ≥ 1` (or
`alpha_min ≤ 0` with a nonnegative factor), and then a search whose trial points all lie outside
the funnel never ends. -/
theorem C12_funnel_nonterminating (o : Opts K) (hmo : o.meritOnly = false)
    (hbad : (1 ≤ o.alphaReduction ∧ o.alphaMin ≤ 1) ∨ (0 ≤ o.alphaReduction ∧ o.alphaMin ≤ 0))
    (s : St X K) (po pi : K) (trial : Nat → K → Trial X K)
    (hout : ∀ j a, s.mem.width < (trial j a).infeas) (fuel : Nat) :
    findAcceptable o s po pi trial fuel = none := by
  have hal : ∀ i : Nat, o.alphaMin ≤ o.alphaReduction ^ i := by
    intro i
    rcases hbad with ⟨h1, h2⟩ | ⟨h1, h2⟩
    · exact h2.trans (one_le_pow₀ h1)
    · exact h2.trans (pow_nonneg h1 i)
  have := lsLoop_stuck o (startCtx o s.mem s.nlp po pi) trial
    { s.nlp with objMult := (startCtx o s.mem s.nlp po pi).penalty } hmo s.mem.width hout hal fuel 0
    { s.mem with penalty := (startCtx o s.mem s.nlp po pi).penalty } rfl
  unfold findAcceptable lineSearch
  simp only [lit_one_one]
  rw [pow_zero] at this
  rw [this]

/-- such options are accepted by the setters -/
theorem C12_bad_options_accepted : ∃ o : Opts K, UserOpts o ∧ o.meritOnly = false ∧
    1 ≤ o.alphaReduction ∧ o.alphaMin ≤ 1 := by
  refine ⟨{ (Opts.default : Opts K) with alphaReduction := 1 }, ⟨[.alphaReduction 1], rfl⟩, rfl,
    le_refl _, ?_⟩
  simp only [Opts.default, lit]
  norm_num

/-! ## Further findings about the funnel code -/

/-- `initial_penalty_parameter` has no effect on the state in which a solve starts. -/
theorem funnel_initial_penalty_ignored (o : Opts K) (v : K) (x : X) (g : Mem K) (n : NlpMem K)
    (infeas : K) :
    start { o with initialPenalty := v } x g n infeas = start o x g n infeas := rfl

/-- The penalty mode of a previous solve survives `initializeMemory`. -/
theorem funnel_penalty_mode_leaks (o : Opts K) (x : X) (g : Mem K) (n : NlpMem K) (infeas : K) :
    (start o x g n infeas).mem.penaltyMode = g.penaltyMode := rfl

/-- The effect is observable: two solves that differ only in the penalty mode left over from an
earlier solve decide differently about the same trial point. -/
theorem funnel_penalty_mode_leak_observable :
    ∃ (o : Opts ℚ) (g : Mem ℚ) (n : NlpMem ℚ) (t : Trial Unit ℚ),
      UserOpts o ∧ 0 ≤ t.infeas ∧
      (findAcceptable o (start o () { g with penaltyMode := false } n 0) 1 0 (fun _ _ => t) 10).map
        (·.1) = some .success ∧
      (findAcceptable o (start o () { g with penaltyMode := true } n 0) 1 0 (fun _ _ => t) 100).map
        (·.1) = some .minStep := by
  refine ⟨Opts.default, ⟨0, '-', false, 0, 0, 0⟩, ⟨10, 1⟩, ⟨(), 9, 1⟩, ⟨[], rfl⟩, by decide +kernel,
    by decide +kernel, by decide +kernel⟩

/-- A trial point with a NaN objective is accepted by an h-type step (IEEE comparisons). -/
theorem funnel_accepts_nan_cost :
    ∃ (o : Opts Dbl) (s : St Unit Dbl) (po pi : Dbl) (trial : Nat → Dbl → Trial Unit Dbl),
      (Opts.default : Opts Dbl).setAll [] = some o ∧ s.mem.l1 = .fin 1 ∧ s.mem.width = .fin 2 ∧
      (findAcceptable o s po pi trial 1).map (fun r => (r.1, r.2.nlp.costValue)) =
        some (.success, .nan) := by
  refine ⟨Opts.default, ⟨(), ⟨.fin 2, '-', false, .fin 1, .fin 1, .fin 1⟩, ⟨.fin 0, .fin 1⟩⟩,
    .fin 0, .fin 1, fun _ _ => ⟨(), .nan, .fin 0⟩, rfl, rfl, rfl, by decide +kernel⟩

/-! ## Non-vacuity -/

/-- Two calls over ℚ: the first is an h-type step that shrinks the funnel, the second an f-type
step.  Meets the hypotheses of C09–C11 with two accepted steps. -/
def exCalls : List (Call Nat ℚ) :=
  [⟨0, 1, fun _ _ => ⟨1, 5, 1 / 2⟩⟩, ⟨1, 0, fun _ _ => ⟨2, 4, 1 / 4⟩⟩]

example : UserOpts (Opts.default : Opts ℚ) ∧ NonnegTrials exCalls ∧
    ((runCalls Opts.default 10 (start Opts.default 0 ⟨0, 'x', false, 0, 0, 0⟩ ⟨7, 1⟩ 1) exCalls).map
      (·.map (fun s => (s.x, s.mem.width, s.mem.iterType, s.nlp.costValue)))) =
      some [(1, 1355 / 100, 'h', 5), (2, 1355 / 100, 'f', 4)] := by
  refine ⟨⟨[], rfl⟩, ?_, by decide +kernel⟩
  intro c hc j a
  simp only [exCalls, List.mem_cons, List.not_mem_nil, or_false] at hc
  rcases hc with rfl | rfl <;> norm_num

/-- the penalty parameter really decreases for a large predicted objective increase -/
example : updatePenalty (Opts.default : Opts ℚ) 1 (-10) 1 < 1 ∧
    0 < updatePenalty (Opts.default : Opts ℚ) 1 (-10) 1 := by decide +kernel

/-- a failing search under default options (hypothesis of `C12_funnel_failure_leaves_iterate`) -/
example : (findAcceptable (Opts.default : Opts ℚ) ⟨0, ⟨1, '-', false, 1, 1, 1⟩, ⟨7, 1⟩⟩ 1 1
    (fun _ _ => ⟨1, 8, 5⟩) 20).map (fun r => (r.1, r.2.x)) = some (.minStep, 0) := by
  decide +kernel

/-- the statuses funnel globalization can return (used by C15) -/
theorem C15_funnel_statuses (o : Opts K) (s s' : St X K) (po pi : K)
    (trial : Nat → K → Trial X K) (fuel : Nat) (st : Status)
    (h : findAcceptable o s po pi trial fuel = some (st, s')) :
    st ∈ [Status.success, .minStep] := by
  have key : ∀ fuel j al (m : Mem K) c n r, lsLoop o c trial n fuel j al m = some r →
      r.status ∈ [Status.success, .minStep] := by
    intro fuel
    induction fuel with
    | zero => intro j al m c n r h; simp [lsLoop] at h
    | succ fuel ih =>
      intro j al m c n r h
      simp only [lsLoop] at h
      split at h
      · simp only [Option.some.injEq] at h; simp [← h]
      · split at h
        · simp only [Option.some.injEq] at h; simp [← h]
        · exact ih _ _ _ _ _ _ h
  unfold findAcceptable at h
  split at h
  · simp at h
  · next r hr =>
    simp only [Option.some.injEq, Prod.mk.injEq] at h
    rw [← h.1]
    exact key _ _ _ _ _ _ _ hr

end Acados.Funnel
