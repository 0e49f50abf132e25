import Verif.Lemmas.Merit
/-!
# Properties C12 (merit / DDP part), C13, C14, C52, and the cost part of C20
-/
namespace Acados.Merit
open Finset
variable {K : Type*} [Field K] [LinearOrder K] [IsStrictOrderedRing K] {X : Type*}

/-! ## C12 for the merit and DDP line searches -/

/-- **C12** (merit line search): for `alpha_min > 0` and `0 ≤ alpha_reduction < 1` a number of
trials depending only on these options suffices, for every merit function. -/
theorem C12_merit_terminates [Archimedean K] (aMin aRed : K) (h0 : 0 < aMin) (h1 : 0 ≤ aRed)
    (h2 : aRed < 1) :
    ∃ n : Nat, ∀ (o : Opts K), o.alphaMin = aMin → o.alphaReduction = aRed →
      ∀ (bad : K → Bool) (env : Env K X) (x : X) (aOld : K),
      ∃ r, findAcceptable o bad env x aOld (n + 1) = some r := by
  obtain ⟨n, hn⟩ := exists_pow_lt_of_lt_one h0 h2
  refine ⟨n, fun o hm hr bad env x aOld => ?_⟩
  unfold findAcceptable
  split
  · exact ⟨_, rfl⟩
  · split
    · exact ⟨_, rfl⟩
    · unfold lineSearch
      obtain ⟨r, hr'⟩ := lsLoop_terminates o bad env.merit env.merit0
        (if o.sufficientDescent then (if env.grad > lit 0 1 then lit 0 1 else env.grad) else lit 0 1)
        n 0 (lit 1 1) (lit 0 1) (n + 1)
        (by
          rw [iterate_mul_pow, lit_one_one, one_mul, hr, hm, gt_iff_lt, not_lt, ← pow_succ]
          exact (pow_le_pow_of_le_one h1 h2.le (Nat.le_succ n)).trans hn.le) (by omega)
      simp only [hr']
      split <;> exact ⟨_, rfl⟩

/-- **C12** (DDP line search): termination. -/
theorem C12_ddp_terminates [Archimedean K] (aMin aRed : K) (h0 : 0 < aMin) (h1 : 0 ≤ aRed)
    (h2 : aRed < 1) :
    ∃ n : Nat, ∀ (o : Opts K), o.alphaMin = aMin → o.alphaReduction = aRed →
      ∀ (qpCost cost : K) (trial : Nat → K → X × K) (x : X),
      ∃ r, ddpFind o qpCost cost trial x (n + 1) = some r := by
  obtain ⟨n, hn⟩ := exists_pow_lt_of_lt_one h0 h2
  refine ⟨n, fun o hm hr qpCost cost trial x => ?_⟩
  unfold ddpFind
  obtain ⟨r, hr'⟩ := ddpLoop_terminates o (-qpCost) cost trial n 0 (lit 1 1) (n + 1)
    (by
      rw [lit_one_one, one_mul, hr, hm]
      exact lt_of_le_of_lt (pow_le_pow_of_le_one h1 h2.le (Nat.le_succ n)) hn) (by omega)
  rw [hr']
  obtain ⟨st, a, c, t⟩ := r
  simp only
  split <;> exact ⟨_, rfl⟩

/-- **C12** (DDP line search, failure): on MINSTEP the iterate and the cost are unchanged and the
recorded step size is zero. -/
theorem C12_ddp_failure_leaves_iterate (o : Opts K) (qpCost cost : K) (trial : Nat → K → X × K)
    (x : X) (fuel : Nat) (st : Status) (a c : K) (y : X)
    (h : ddpFind o qpCost cost trial x fuel = some (st, a, c, y)) (hne : st ≠ .success) :
    st = .minStep ∧ y = x ∧ c = cost ∧ a = 0 := by
  unfold ddpFind at h
  split at h
  · simp at h
  · next st' a' c' t hl =>
    split at h
    · simp only [Option.some.injEq, Prod.mk.injEq] at h
      exact absurd h.1.symm hne
    · next hs =>
      simp only [Option.some.injEq, Prod.mk.injEq] at h
      obtain ⟨rfl, rfl, rfl, rfl⟩ := h
      rcases ddpLoop_spec o _ _ _ _ _ _ _ _ _ _ hl with ⟨i, h1, _⟩ | ⟨_, h2, h3⟩
      · exact absurd h1 hs
      · exact ⟨rfl, rfl, h3, h2⟩

/-- **C12 is false for merit backtracking**: for every option set with `alpha_min > 0` and
`0 < alpha_reduction < 1`, if no trial decreases the (finite) merit function, the search gives up
internally, yet the call reports SUCCESS and moves the iterate by an untested step size. -/
theorem C12_merit_failure_moves_iterate [Archimedean K] (o : Opts K) (hs : o.useSOC = false)
    (h0 : 0 < o.alphaMin) (h1 : 0 < o.alphaReduction) (h2 : o.alphaReduction < 1)
    (he : 0 ≤ o.eps) (env : Env K X) (x : X) (aOld : K)
    (hup : ∀ j a, env.merit0 ≤ env.merit j a) :
    ∃ n al, 0 < al ∧ al * o.alphaReduction ≤ o.alphaMin ∧
      findAcceptable o (fun _ => false) env x aOld n = some (.success, al, env.step al) := by
  obtain ⟨n, hn⟩ := C12_merit_terminates (X := X) o.alphaMin o.alphaReduction h0 h1.le h2
  obtain ⟨r, hr⟩ := hn o rfl rfl (fun _ => false) env x aOld
  unfold findAcceptable at hr
  have e1 : takeFullStep o (fun _ => false) env = false := by simp [takeFullStep, hs]
  have e2 : doSoc o (fun _ => false) env = false := by simp [doSoc, hs]
  simp only [e1, e2, Bool.false_and, Bool.false_eq_true, if_false] at hr
  split at hr
  · simp at hr
  · next l hl =>
    unfold lineSearch at hl
    obtain ⟨i, hal, _, hrest⟩ := lsLoop_spec _ _ _ _ _ _ _ _ _ _ hl
    rw [iterate_mul_pow, lit_one_one, one_mul] at hal
    have hpos : 0 < l.alpha := hal ▸ pow_pos h1 i
    rcases hrest with ⟨_, _, h3, _⟩ | ⟨h3, _, h4⟩
    · exfalso
      have h5 := hup (0 + i) l.alpha
      have h6 : (if o.sufficientDescent = true then if env.grad > lit 0 1 then lit 0 1 else env.grad
          else lit 0 1) ≤ (0 : K) := by
        simp only [lit_zero]
        split
        · split
          · exact le_refl _
          · next h => exact not_lt.1 h
        · exact le_refl _
      have h7 : o.eps * (if o.sufficientDescent = true then if env.grad > lit 0 1 then lit 0 1
          else env.grad else lit 0 1) * l.alpha ≤ 0 :=
        mul_nonpos_of_nonpos_of_nonneg (mul_nonpos_of_nonneg_of_nonpos he h6) hpos.le
      linarith
    · have hst : l.status = .minStep := by
        rcases h4 with ⟨_, h5⟩ | ⟨h5, _⟩
        · simp at h5
        · exact h5
      rw [hst] at hr
      simp only [reduceCtorEq, if_false] at hr
      refine ⟨n + 1, l.alpha, hpos, not_lt.1 h3, ?_⟩
      unfold findAcceptable
      simp only [e1, e2, Bool.false_and, Bool.false_eq_true, if_false]
      unfold lineSearch
      rw [hl]
      simp [hst]

/-! ## C13 -/

/-- The descent condition the merit line search tests for step size `a`: strict decrease, and with
`line_search_use_sufficient_descent` a decrease by `eps·|slope|·a` when the slope is negative. -/
def Descent (o : Opts K) (merit0 grad meritA a : K) : Prop :=
  meritA < merit0 ∧ (o.sufficientDescent = true → grad ≤ 0 → meritA < merit0 + o.eps * grad * a)

/-- **C13** (partial): if the call reports success then either the full step was accepted because it
decreased both merit function and violation, or the applied step satisfies the tested descent
condition, or the search was exhausted (`al·reduction ≤ alpha_min`) and the applied step was never
tested.  Missing: in the last case the English claim fails, see
`C12_merit_failure_moves_iterate` and `C13_success_without_descent`. -/
theorem C13_success_cases_partial (o : Opts K) (he : 0 ≤ o.eps) (hr : 0 ≤ o.alphaReduction)
    (bad : K → Bool) (env : Env K X) (x y : X) (aOld al : K) (fuel : Nat)
    (h : findAcceptable o bad env x aOld fuel = some (.success, al, y)) :
    (o.useSOC = true ∧ al = 1 ∧ y = env.step 1 ∧ env.pre1 < env.pre0 ∧ env.viol1 < env.viol0) ∨
    ((y = env.step al ∨ (o.useSOC = true ∧ y = env.stepSoc al)) ∧
      ∃ j : Nat, al = o.alphaReduction ^ j ∧
      ((Descent o env.merit0 env.grad (env.merit j al) al ∧ bad (env.merit j al) = false) ∨
        al * o.alphaReduction ≤ o.alphaMin)) := by
  unfold findAcceptable at h
  split at h
  · next hc =>
    left
    simp only [lit_one_one, Option.some.injEq, Prod.mk.injEq, true_and] at h
    simp only [takeFullStep, Bool.and_eq_true, decide_eq_true_eq] at hc
    have hp := hc.2
    unfold checkFullStep at hp
    split at hp
    · cases hp
    · split at hp
      · next hd => exact ⟨hc.1, h.1.symm, h.2.symm, hd⟩
      · cases hp
  · right
    split at h
    · simp at h
    · split at h
      · simp at h
      · next l hl =>
        split at h
        · simp at h
        · next hst =>
          simp only [Option.some.injEq, Prod.mk.injEq, true_and] at h
          obtain ⟨rfl, hy⟩ := h
          refine ⟨?_, ?_⟩
          · split at hy
            · next hd =>
              simp only [doSoc, Bool.and_eq_true] at hd
              right; exact ⟨hd.1, hy.symm⟩
            · left; exact hy.symm
          · unfold lineSearch at hl
            obtain ⟨i, hal, _, hrest⟩ := lsLoop_spec _ _ _ _ _ _ _ _ _ _ hl
            rw [iterate_mul_pow, lit_one_one, one_mul] at hal
            refine ⟨i, hal, ?_⟩
            have ha0 : 0 ≤ l.alpha := hal ▸ pow_nonneg hr i
            rcases hrest with ⟨_, _, h3, h4⟩ | ⟨h3, _⟩
            · left
              rw [Nat.zero_add] at h3 h4
              refine ⟨⟨?_, ?_⟩, h4⟩
              · refine lt_of_lt_of_le h3 ?_
                have h6 : (if o.sufficientDescent = true then if env.grad > lit 0 1 then lit 0 1
                    else env.grad else lit 0 1) ≤ (0 : K) := by
                  simp only [lit_zero]
                  split
                  · split
                    · exact le_refl _
                    · next h => exact not_lt.1 h
                  · exact le_refl _
                have := mul_nonpos_of_nonpos_of_nonneg
                  (mul_nonpos_of_nonneg_of_nonpos he h6) ha0
                linarith
              · intro hsd hg
                rw [hsd] at h3
                simp only [if_true, lit_zero] at h3
                rwa [if_neg (by simpa using hg)] at h3
            · right; exact not_lt.1 h3

/-- **C13 is false of the code**: default options, a merit function that grows with the step; the
call reports SUCCESS, applies step size `0.7^8` and the merit function is larger afterwards. -/
theorem C13_success_without_descent :
    ∃ (env : Env ℚ ℚ) (al : ℚ), findAcceptable (Opts.default : Opts ℚ) (fun _ => false) env 0 0 20
      = some (.success, al, env.step al) ∧ 0 < al ∧
      ∀ j, env.merit0 < env.merit j al := by
  refine ⟨⟨0, 0, 0, 0, false, 1, fun _ a => 1 + a, 0, fun a => a, fun a => a⟩, (7 / 10) ^ 8, ?_, ?_, ?_⟩
  · decide +kernel
  · norm_num
  · intro _; norm_num

/-- A second way to skip all tests: when `alpha_min ≥ alpha_reduction` (accepted by the setters) the
loop body never runs and the full step is taken, for every merit function. -/
theorem C13_no_test_when_alpha_min_large (o : Opts K) (hs : o.useSOC = false)
    (h : o.alphaReduction ≤ o.alphaMin) (env : Env K X) (x : X) (aOld : K) (fuel : Nat) :
    findAcceptable o (fun _ => false) env x aOld (fuel + 1) = some (.success, 1, env.step 1) := by
  have e1 : takeFullStep o (fun _ => false) env = false := by simp [takeFullStep, hs]
  have e2 : doSoc o (fun _ => false) env = false := by simp [doSoc, hs]
  unfold findAcceptable lineSearch lsLoop
  simp only [e1, e2, lit_one_one, one_mul]
  rw [if_neg (not_lt.2 h)]
  simp

/-- NaN: with IEEE doubles a search whose last tested merit value is NaN reports NAN_DETECTED and
leaves the iterate untouched. -/
theorem C13_nan_leaves_iterate (o : Opts Dbl) (bad : Dbl → Bool) (env : Env Dbl X) (x y : X)
    (aOld al : Dbl) (fuel : Nat)
    (h : findAcceptable o bad env x aOld fuel = some (.nanDetected, al, y)) : y = x := by
  unfold findAcceptable at h
  split at h
  · simp at h
  · split at h
    · simp at h
    · split at h
      · simp at h
      · split at h
        · simp only [Option.some.injEq, Prod.mk.injEq] at h; exact h.2.2.symm
        · simp at h

/-! ## C14 -/

/-- the weights after a history of multiplier vectors: first call initialises, later calls update -/
def weightsAfter (first : List K × List K) (rest : List (List K × List K)) : Weights K :=
  rest.foldl (fun w m => updateWeights w m.1 m.2) (initWeights first.1 first.2)

theorem updateEq_facts (w p B : K) (hw : w ≤ B) (hp : |p| ≤ B) :
    |p| ≤ updateWeightEq w p ∧ updateWeightEq w p ≤ B := by
  have h2 : (lit 1 2 : K) = 1 / 2 := by simp [lit]
  unfold updateWeightEq
  simp only [lit_zero, cabs_eq_abs, h2]
  split
  · exact ⟨le_refl _, hp⟩
  · next h => exact ⟨not_lt.1 h, by linarith⟩

theorem updateIneq_facts (w p B : K) (hw : w ≤ B) (hp : p ≤ B) :
    p ≤ updateWeightIneq w p ∧ updateWeightIneq w p ≤ B := by
  have h2 : (lit 1 2 : K) = 1 / 2 := by simp [lit]
  unfold updateWeightIneq
  simp only [h2]
  split
  · exact ⟨le_refl _, hp⟩
  · next h => exact ⟨not_lt.1 h, by linarith⟩

/-- the state of the weights after the last multiplier vectors `(pi, lam)` have been processed -/
structure WeightsOK (n m : Nat) (pi lam : List K) (B : K) (w : Weights K) : Prop where
  lenPi : w.pi.length = n
  lenLam : w.lam.length = m
  geqPi : ∀ k (h : k < w.pi.length) (h' : k < pi.length), |pi[k]| ≤ w.pi[k]
  geqLam : ∀ k (h : k < w.lam.length) (h' : k < lam.length), lam[k] ≤ w.lam[k]
  bndPi : ∀ k (h : k < w.pi.length), w.pi[k] ≤ B
  bndLam : ∀ k (h : k < w.lam.length), w.lam[k] ≤ B

/-- **C14**: for every history of multiplier vectors (of the right length, inequality multipliers
nonnegative), after the last update every equality weight is at least the absolute value of its
multiplier, every inequality weight at least its multiplier (hence both are nonnegative), and every
weight is bounded by any bound `B` of all multipliers seen so far. -/
theorem C14_weights (n m : Nat) (B : K) (first : List K × List K) (rest : List (List K × List K))
    (hlen : ∀ v ∈ first :: rest, v.1.length = n ∧ v.2.length = m)
    (hB : ∀ v ∈ first :: rest, (∀ p ∈ v.1, |p| ≤ B) ∧ (∀ l ∈ v.2, l ≤ B)) :
    let last := (first :: rest).getLast (by simp)
    WeightsOK n m last.1 last.2 B (weightsAfter first rest) := by
  suffices H : ∀ (rest : List (List K × List K)) (cur : List K × List K) (w : Weights K),
      (∀ v ∈ rest, v.1.length = n ∧ v.2.length = m) →
      (∀ v ∈ rest, (∀ p ∈ v.1, |p| ≤ B) ∧ (∀ l ∈ v.2, l ≤ B)) →
      WeightsOK n m cur.1 cur.2 B w →
      WeightsOK n m ((cur :: rest).getLast (by simp)).1 ((cur :: rest).getLast (by simp)).2 B
        (rest.foldl (fun w m => updateWeights w m.1 m.2) w) by
    refine H rest first _ (fun v hv => hlen v (by simp [hv])) (fun v hv => hB v (by simp [hv])) ?_
    have l1 := hlen first (by simp)
    have b1 := hB first (by simp)
    refine ⟨by simpa [initWeights] using l1.1, by simpa [initWeights] using l1.2, ?_, ?_, ?_, ?_⟩
    · intro k h h'
      simp [initWeights, initWeightEq, cabs_eq_abs]
    · intro k h h'
      simp [initWeights, initWeightIneq]
    · intro k h
      simp only [initWeights, List.length_map] at h
      simp only [initWeights, List.getElem_map, initWeightEq, lit_zero, cabs_eq_abs]
      exact b1.1 _ (List.getElem_mem h)
    · intro k h
      simp only [initWeights, List.length_map] at h
      simp only [initWeights, List.getElem_map, initWeightIneq]
      exact b1.2 _ (List.getElem_mem h)
  intro rest
  induction rest with
  | nil => intro cur w _ _ hw; simpa using hw
  | cons v t ih =>
    intro cur w hl hb hw
    rw [List.getLast_cons (by simp)]
    have lv := hl v (by simp)
    have bv := hb v (by simp)
    refine ih v (updateWeights w v.1 v.2) (fun u hu => hl u (by simp [hu]))
      (fun u hu => hb u (by simp [hu])) ?_
    refine ⟨by simp [updateWeights, hw.lenPi, lv.1], by simp [updateWeights, hw.lenLam, lv.2], ?_, ?_, ?_, ?_⟩
    · intro k h h'
      have hk : k < w.pi.length := by simp [updateWeights] at h; exact h.1
      simp only [updateWeights, List.getElem_zipWith]
      exact (updateEq_facts _ _ B (hw.bndPi k hk) (bv.1 _ (List.getElem_mem h'))).1
    · intro k h h'
      have hk : k < w.lam.length := by simp [updateWeights] at h; exact h.1
      simp only [updateWeights, List.getElem_zipWith]
      exact (updateIneq_facts _ _ B (hw.bndLam k hk) (bv.2 _ (List.getElem_mem h'))).1
    · intro k h
      have hk : k < w.pi.length := by simp [updateWeights] at h; exact h.1
      have hk' : k < v.1.length := by simp [updateWeights] at h; exact h.2
      simp only [updateWeights, List.getElem_zipWith]
      exact (updateEq_facts _ _ B (hw.bndPi k hk) (bv.1 _ (List.getElem_mem hk'))).2
    · intro k h
      have hk : k < w.lam.length := by simp [updateWeights] at h; exact h.1
      have hk' : k < v.2.length := by simp [updateWeights] at h; exact h.2
      simp only [updateWeights, List.getElem_zipWith]
      exact (updateIneq_facts _ _ B (hw.bndLam k hk) (bv.2 _ (List.getElem_mem hk'))).2

/-- **C14** (averaging): a weight above its multiplier moves half way towards it, so it exceeds the
multiplier by exactly half the previous excess. -/
theorem C14_averaging (w p : K) (h : |p| ≤ w) : updateWeightEq w p - |p| = (w - |p|) / 2 := by
  have h2 : (lit 1 2 : K) = 1 / 2 := by simp [lit]
  unfold updateWeightEq
  simp only [lit_zero, cabs_eq_abs, h2]
  rw [if_neg (by rw [gt_iff_lt, not_lt]; linarith)]
  ring

/-- non-vacuity of C14: two updates over ℚ with changing signs -/
example : (weightsAfter (K := ℚ) ([-3, 1], [2]) [([1, -4], [0]), ([0, 0], [6])]).pi = [1, 2] ∧
    (weightsAfter (K := ℚ) ([-3, 1], [2]) [([1, -4], [0]), ([0, 0], [6])]).lam = [6] := by
  decide +kernel

/-! ## C20 (cost part): the DDP line search never increases the cost -/

/-- **C20** (cost): the cost recorded after a DDP globalization call never exceeds the cost before,
and an accepted cost is the cost of the iterate that was accepted. -/
theorem C20_ddp_cost_nonincreasing (o : Opts K) (qpCost cost : K) (trial : Nat → K → X × K)
    (x : X) (fuel : Nat) (st : Status) (a c : K) (y : X)
    (h : ddpFind o qpCost cost trial x fuel = some (st, a, c, y)) :
    c ≤ cost ∧ ((st = .success ∧ ∃ j, trial j a = (y, c)) ∨ (y = x ∧ c = cost)) := by
  unfold ddpFind at h
  split at h
  · simp at h
  · next st' a' c' t hl =>
    rcases ddpLoop_spec o _ _ _ _ _ _ _ _ _ _ hl with ⟨i, h1, h2, h3, h4⟩ | ⟨h1, h2, h3⟩
    · rw [if_pos h1] at h
      simp only [Option.some.injEq, Prod.mk.injEq] at h
      obtain ⟨rfl, rfl, rfl, rfl⟩ := h
      have := h4.trans (min_le_right _ _)
      exact ⟨by linarith, .inl ⟨rfl, 0 + i, h3⟩⟩
    · rw [h1] at h
      simp only [reduceCtorEq, if_false, Option.some.injEq, Prod.mk.injEq] at h
      obtain ⟨rfl, rfl, rfl, rfl⟩ := h
      exact ⟨h3.le, .inr ⟨rfl, h3⟩⟩

/-- non-vacuity: a DDP call that backtracks once and succeeds, and one that fails -/
example : ddpFind (Opts.default : Opts ℚ) (-1) 5 (fun _ a => (a, if a < 1 then 4 else 6)) 0 30 =
      some (.success, 7 / 10, 4, 7 / 10) ∧
    ddpFind (Opts.default : Opts ℚ) (-1) 5 (fun _ a => (a, 6)) 0 30 = some (.minStep, 0, 5, 0) := by
  decide +kernel

/-! ## C52: slope of the merit function -/

/-- derivative of entry `j` of the inequality vector along the step: lower entries are
`bound - value - slack`, upper entries `value - bound - slack`, the remaining entries are
`slack bound - slack` (see C05). -/
def dirIneq (s : Stage K) (j : Nat) : K :=
  let n := s.nb + s.ng
  if j < n then - rowDir s j - slackStep s j
  else if j < 2 * n then rowDir s (j - n) - slackStep s j
  else - s.step (s.nux + (j - 2 * n))

/-- the stage after a step of length `a` of the linearised problem -/
def along (s : Stage K) (a : K) : Stage K :=
  { s with cost := s.cost + a * ∑ r ∈ range s.nv, s.costGrad r * s.step r
           gap := fun j => s.gap j + a * s.dgap j
           c := fun j => s.c j + a * dirIneq s j }

/-- the step solves the linearised constraints (it comes from a solved QP) and slack bounds hold -/
structure QpStep (s : Stage K) : Prop where
  ineq : ∀ j < 2 * (s.nb + s.ng) + s.extra, s.c j + dirIneq s j ≤ 0
  slackOk : ∀ j, 2 * (s.nb + s.ng) ≤ j → j < 2 * (s.nb + s.ng) + s.extra → s.c j ≤ 0
  dyn : ∀ j < s.nxn, s.gap j + s.dgap j = 0
  w : ∀ j, 0 ≤ s.w j
  wpi : ∀ j, 0 ≤ s.wpi j

/-- sum of the contributions of violated lower constraints -/
def lowerViolated (s : Stage K) : K :=
  ∑ j ∈ range (s.nb + s.ng), if s.c j > 0 then s.w j * rowDir s j else 0

theorem gradIneq_eq (s : Stage K) (j : Nat) (hj : j < 2 * (s.nb + s.ng)) :
    gradIneq s j = (if s.c j > 0 then s.w j * dirIneq s j else 0) +
      (if j < s.nb + s.ng then 2 * (if s.c j > 0 then s.w j * rowDir s j else 0) else 0) := by
  unfold gradIneq dirIneq
  by_cases hc : s.c j > 0
  · by_cases hn : j < s.nb + s.ng
    · simp only [hc, hn, if_true]; ring
    · simp only [hc, hn, hj, if_true, if_false]; ring
  · simp [hc]

theorem sum_ite_lt (n m : Nat) (f : Nat → K) (h : n ≤ m) :
    ∑ j ∈ range m, (if j < n then f j else 0) = ∑ j ∈ range n, f j := by
  rw [← Finset.sum_filter]
  congr 1
  ext x; simp; omega

theorem stage_slope (s : Stage K) (hs : QpStep s) :
    ∃ δ > 0, ∀ a, 0 ≤ a → a ≤ δ →
      meritStage (along s a) = meritStage s + a * (gradStage s - 2 * lowerViolated s) := by
  -- inequality terms
  have hineq : ∀ j ∈ range (2 * (s.nb + s.ng) + s.extra), ∃ δ > 0, ∀ a, 0 ≤ a → a ≤ δ →
      ((if s.c j + a * dirIneq s j > 0 then abs (s.w j) * (s.c j + a * dirIneq s j) else 0)
        = (if s.c j > 0 then abs (s.w j) * s.c j else 0) +
          a * (if s.c j > 0 then s.w j * dirIneq s j else 0)) := by
    intro j hj
    have hj' := mem_range.1 hj
    have hq := hs.ineq j hj'
    by_cases hc : s.c j > 0
    · have hd : dirIneq s j < 0 := by linarith
      refine ⟨s.c j / (2 * (- dirIneq s j)), by apply div_pos hc; linarith, ?_⟩
      intro a ha hle
      have h1 : a * (2 * (- dirIneq s j)) ≤ s.c j := by
        have := mul_le_mul_of_nonneg_right hle (by linarith : (0 : K) ≤ 2 * (- dirIneq s j))
        rwa [div_mul_cancel₀] at this
        intro h0; linarith
      rw [if_pos hc, if_pos hc, if_pos (by linarith), abs_of_nonneg (hs.w j)]
      ring
    · refine ⟨1, one_pos, ?_⟩
      intro a ha hle
      rw [if_neg hc, if_neg hc, if_neg]
      · simp
      · rw [gt_iff_lt, not_lt]
        nlinarith [not_lt.1 hc]
  obtain ⟨δ, hδ, H⟩ := exists_uniform _ _ hineq
  refine ⟨min δ 1, lt_min hδ one_pos, ?_⟩
  intro a ha hle
  have hδ' := hle.trans (min_le_left _ _)
  have h1 := hle.trans (min_le_right _ _)
  have e3 : (∑ j ∈ range (2 * (s.nb + s.ng) + s.extra),
      if s.c j + a * dirIneq s j > 0 then abs (s.w j) * (s.c j + a * dirIneq s j) else 0)
      = (∑ j ∈ range (2 * (s.nb + s.ng) + s.extra), if s.c j > 0 then abs (s.w j) * s.c j else 0) +
        a * ∑ j ∈ range (2 * (s.nb + s.ng) + s.extra), if s.c j > 0 then s.w j * dirIneq s j else 0 := by
    rw [Finset.mul_sum, ← Finset.sum_add_distrib]
    exact Finset.sum_congr rfl (H a ha hδ')
  have e4 : (∑ j ∈ range (2 * (s.nb + s.ng) + s.extra), if s.c j > 0 then s.w j * dirIneq s j else 0)
      = ∑ j ∈ range (2 * (s.nb + s.ng)), if s.c j > 0 then s.w j * dirIneq s j else 0 := by
    rw [Finset.sum_range_add]
    rw [add_eq_left]
    apply Finset.sum_eq_zero
    intro j hj
    rw [if_neg]
    rw [gt_iff_lt, not_lt]
    exact hs.slackOk _ (by omega) (by have := mem_range.1 hj; omega)
  have e5 : (∑ j ∈ range (2 * (s.nb + s.ng)), gradIneq s j) =
      (∑ j ∈ range (2 * (s.nb + s.ng)), if s.c j > 0 then s.w j * dirIneq s j else 0) +
        2 * lowerViolated s := by
    rw [Finset.sum_congr rfl (fun j hj => gradIneq_eq s j (mem_range.1 hj)), Finset.sum_add_distrib,
      sum_ite_lt (s.nb + s.ng) _ _ (by omega), lowerViolated, Finset.mul_sum]
  have e2 : (∑ j ∈ range s.nxn, abs (s.wpi j) * abs (s.gap j + a * s.dgap j)) =
      (∑ j ∈ range s.nxn, abs (s.wpi j) * abs (s.gap j)) +
        a * ∑ j ∈ range s.nxn, if s.gap j > 0 then s.wpi j * s.dgap j else -(s.wpi j * s.dgap j) := by
    rw [Finset.mul_sum, ← Finset.sum_add_distrib]
    refine Finset.sum_congr rfl ?_
    intro j hj
    have hd : s.dgap j = - s.gap j := by linarith [hs.dyn j (mem_range.1 hj)]
    have e : s.gap j + a * s.dgap j = (1 - a) * s.gap j := by rw [hd]; ring
    rw [e, abs_mul, abs_of_nonneg (by linarith : (0 : K) ≤ 1 - a), abs_of_nonneg (hs.wpi j), hd]
    split
    · next hg => rw [abs_of_pos hg]; ring
    · next hg => rw [abs_of_nonpos (not_lt.1 hg)]; ring
  unfold meritStage gradStage along
  simp only
  rw [e2, e3, e4, e5]
  ring

/-- **C52** (exact description of the slope used by the sufficient-descent test): along a step that
solves the linearised constraints, the merit function of the linearised problem changes for all small
step sizes at the rate `meritGrad` *minus twice the contribution of the violated lower constraints*.
So the computed slope is the true slope iff that contribution vanishes. -/
theorem C52_slope_partial (N : Nat) (s : Nat → Stage K) (hs : ∀ i ≤ N, QpStep (s i)) :
    ∃ δ > 0, ∀ a, 0 ≤ a → a ≤ δ →
      meritFun N (fun i => along (s i) a) =
        meritFun N s + a * (meritGrad N s - 2 * ∑ i ∈ range (N + 1), lowerViolated (s i)) := by
  obtain ⟨δ, hδ, H⟩ := exists_uniform (range (N + 1))
    (fun i a => meritStage (along (s i) a) =
      meritStage (s i) + a * (gradStage (s i) - 2 * lowerViolated (s i)))
    (fun i hi => stage_slope (s i) (hs i (by have := mem_range.1 hi; omega)))
  refine ⟨δ, hδ, ?_⟩
  intro a ha hle
  unfold meritFun meritGrad
  rw [Finset.sum_congr rfl (H a ha hle), Finset.sum_add_distrib, ← Finset.mul_sum,
    Finset.sum_sub_distrib, ← Finset.mul_sum]

/-- **C52**, consequence: with no violated lower constraint the computed slope is the slope of the
merit function. -/
theorem C52_slope_upper_only (N : Nat) (s : Nat → Stage K) (hs : ∀ i ≤ N, QpStep (s i))
    (hlow : ∀ i ≤ N, ∀ j < (s i).nb + (s i).ng, (s i).c j ≤ 0) :
    ∃ δ > 0, ∀ a, 0 ≤ a → a ≤ δ →
      meritFun N (fun i => along (s i) a) = meritFun N s + a * meritGrad N s := by
  obtain ⟨δ, hδ, H⟩ := C52_slope_partial N s hs
  refine ⟨δ, hδ, fun a ha hle => ?_⟩
  rw [H a ha hle, Finset.sum_eq_zero]
  · ring
  · intro i hi
    apply Finset.sum_eq_zero
    intro j hj
    rw [if_neg]
    rw [gt_iff_lt, not_lt]
    exact hlow i (by have := mem_range.1 hi; omega) j (mem_range.1 hj)

/-- One variable, lower bound violated by 1, unit weight, the QP step repairs the violation. -/
def cexStage : Stage ℚ where
  nux := 1; nb := 1; ng := 0; ns := 0; extra := 0; cost := 0; costGrad := fun _ => 0; nv := 1
  c := fun j => if j = 0 then 1 else -5
  w := fun _ => 1
  step := fun _ => 1
  idxb := fun _ => 0
  DCt := fun _ _ => 0
  idxsRev := fun _ => none
  nxn := 0; gap := fun _ => 0; wpi := fun _ => 0; dgap := fun _ => 0

/-- **C52 is false of the code**: with a violated lower bound the computed slope has the wrong sign:
it is `+1` while the merit function decreases at rate `-1` along the step.  (The line search then
replaces the slope by 0, i.e. no sufficient decrease is required.) -/
theorem C52_lower_bound_wrong_sign :
    QpStep cexStage ∧ meritGrad 0 (fun _ => cexStage) = 1 ∧
    ∀ a : ℚ, 0 ≤ a → a ≤ 1 →
      meritFun 0 (fun _ => along cexStage a) = meritFun 0 (fun _ => cexStage) + a * (-1) := by
  refine ⟨⟨?_, ?_, ?_, ?_, ?_⟩, ?_, ?_⟩
  · intro j hj
    have : j = 0 ∨ j = 1 := by simp [cexStage] at hj; omega
    rcases this with rfl | rfl <;> norm_num [cexStage, dirIneq, rowDir, slackStep]
  · intro j h1 h2; simp [cexStage] at h1 h2; omega
  · intro j hj; simp [cexStage] at hj
  · intro j; simp [cexStage]
  · intro j; simp [cexStage]
  · norm_num [meritGrad, gradStage, cexStage, gradIneq, rowDir, slackStep, Finset.sum_range_succ]
  · intro a ha h1
    have e1 : ¬ (-5 + a > 0) := by linarith
    have e2 : (if (1 : ℚ) + -a > 0 then 1 + -a else 0) = 1 + -a := by
      split
      · rfl
      · linarith
    simp only [meritFun, meritStage, along, cexStage, dirIneq, rowDir, slackStep]
    norm_num [Finset.sum_range_succ]
    rw [if_neg (by linarith : ¬ (5 : ℚ) < a)]
    split <;> linarith

/-- non-vacuity of `C52_slope_upper_only`: an upper bound violated by 1 and repaired by the step -/
example : ∃ s : Stage ℚ, QpStep s ∧ (∀ j < s.nb + s.ng, s.c j ≤ 0) ∧ s.c 1 > 0 ∧ gradStage s = -1 := by
  refine ⟨{ cexStage with c := fun j => if j = 0 then -5 else 1, step := fun _ => -1 },
    ⟨?_, ?_, ?_, ?_, ?_⟩, ?_, ?_, ?_⟩
  · intro j hj
    have : j = 0 ∨ j = 1 := by simp [cexStage] at hj; omega
    rcases this with rfl | rfl <;> norm_num [cexStage, dirIneq, rowDir, slackStep]
  · intro j h1 h2; simp [cexStage] at h1 h2; omega
  · intro j hj; simp [cexStage] at hj
  · intro j; simp [cexStage]
  · intro j; simp [cexStage]
  · intro j hj
    have : j = 0 := by simp [cexStage] at hj; omega
    subst this; norm_num
  · norm_num
  · norm_num [gradStage, cexStage, gradIneq, rowDir, slackStep, Finset.sum_range_succ]

/-- the statuses merit-backtracking globalization can return (used by C15) -/
theorem C15_merit_statuses (o : Opts K) (bad : K → Bool) (env : Env K X) (x : X) (a : K)
    (fuel : Nat) (st : Status) (b : K) (y : X)
    (h : findAcceptable o bad env x a fuel = some (st, b, y)) :
    st ∈ [Status.success, .nanDetected, .qpFailure] := by
  unfold findAcceptable at h
  split at h
  · simp only [Option.some.injEq, Prod.mk.injEq] at h; simp [← h.1]
  · split at h
    · simp only [Option.some.injEq, Prod.mk.injEq] at h; simp [← h.1]
    · split at h
      · simp at h
      · split at h <;> simp only [Option.some.injEq, Prod.mk.injEq] at h <;> simp [← h.1]

end Acados.Merit
