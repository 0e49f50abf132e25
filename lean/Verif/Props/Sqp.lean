import Verif.Lemmas.SqpLoop
import Mathlib.Tactic.NormNum
/-!
# Properties of the SQP loop: status codes (C15), iteration bound and table bounds (C16), timeout
prediction (C17), warm start (C18), statistics getter (C45), stored iterates (C53)
-/
namespace Acados.Sqp
variable {K X : Type*} [Field K] [LinearOrder K] [IsStrictOrderedRing K]

/-! ## C15 -/

/-- C15: for nonnegative `max_iter` the returned status means what it says.  `s.x` is the iterate
returned to the user; every status that does not come from the loop itself was returned by the
globalization. -/
theorem C15_status_meaning (o : Opts K) (e : Env K X) (p : Persist K) (x0 : X) (st : Status)
    (s : St K X) (hM : 0 ≤ o.maxIter) (h : solve o e p x0 = .ret st s) :
    (st = .success → (e.res s.x).Below o ∧ s.x = traj e x0 s.iter) ∧
    (st = .maxIter → (s.iter : Int) = o.maxIter ∨ GlobFailed s st) ∧
    (st = .nanDetected →
      (e.res s.x).HasNan ∨ GlobFailed s st ∨
      (o.maxIter = 0 ∧ o.evalResAtMaxIter = false ∧ p.res.HasNan)) ∧
    (st = .minStep →
      (0 < s.iter ∧ e.stepNorm (s.iter - 1) (traj e x0 (s.iter - 1)) < o.tolMinStep) ∨
      GlobFailed s st) ∧
    (st = .unbounded → (o.needsObj = true → e.cost s.x ≤ o.tolUnbounded) ∨ GlobFailed s st) ∧
    (st = .timeout →
      (0 < o.timeoutMax ∧ o.timeoutMax ≤
        e.toc s.iter + predicted o.heur p.est (durations e.toc s.iter)) ∨ GlobFailed s st) ∧
    (st = .qpFailure →
      (0 < s.iter ∧ ¬ QpOk (e.qp (s.iter - 1) (traj e x0 (s.iter - 1)))) ∨ GlobFailed s st) ∧
    (st ∈ [.success, .maxIter, .nanDetected, .minStep, .unbounded, .timeout, .qpFailure] ∨
      GlobFailed s st) := by
  have hend := solve_ending hM h
  rcases hend with ⟨_, _, hm, hc⟩ | ⟨s, hm, hc, h1, h2⟩ | ⟨s, hm, hc, hq, h1⟩
  · unfold checkTermination at hc
    have hle := hm.iterLe
    split_ifs at hc with c1 c2 c3 c4 c5 c6 c7 <;> simp only [Option.some.injEq] at hc <;>
      subst hc <;> simp only [reduceCtorEq, false_implies, true_implies, true_and, and_true,
        List.mem_cons, List.not_mem_nil, or_true, or_false, true_or, false_or]
    · rw [hasNan_iff] at c1
      by_cases hE : Evald o s.iter
      · rw [hm.resE hE] at c1; exact Or.inl c1
      · right; right
        rcases Nat.eq_zero_or_pos s.iter with h0 | h0
        · rw [hm.res0 hE h0] at c1
          unfold Evald at hE
          rw [not_or] at hE
          rw [h0] at hE
          exact ⟨by simpa using (not_not.1 hE.1).symm, by simpa using hE.2, c1⟩
        · exact absurd c1 (hm.resN hE h0)
    · left
      simp at c2
      omega
    · have hE : Evald o s.iter := by
        simp only [Bool.and_eq_true, Bool.not_eq_true', decide_eq_true_eq, not_and] at c2
        unfold Evald
        by_cases hv : o.evalResAtMaxIter = true
        · exact Or.inr hv
        · left
          have := c2 (by simpa using hv)
          omega
      simp only [Bool.and_eq_true, decide_eq_true_eq] at c3
      rw [hm.resE hE] at c3
      exact ⟨⟨c3.1.1.1, c3.1.1.2, c3.1.2, c3.2⟩, hm.hx⟩
    · left
      simp only [Bool.and_eq_true, decide_eq_true_eq] at c4
      refine ⟨c4.1.2, ?_⟩
      rw [← hm.hstep c4.1.2 c4.1.1]
      exact c4.2
    · left
      intro hn
      have hE : Evald o s.iter := by
        simp only [Bool.and_eq_true, Bool.not_eq_true', decide_eq_true_eq, not_and] at c2
        unfold Evald
        by_cases hv : o.evalResAtMaxIter = true
        · exact Or.inr hv
        · left
          have := c2 (by simpa using hv)
          omega
      rw [← hm.hcost hE hn]
      exact c5
    · left; omega
    · left
      rw [hm.tot c7.1, hm.hest c7.1] at c7
      exact c7
  · simp only [reduceCtorEq, false_implies, true_implies, true_and, List.mem_cons,
      or_true, true_or, and_true]
    left
    refine ⟨by simp, ?_⟩
    simp only [Nat.add_sub_cancel]
    rw [← hm.hx]
    unfold QpOk
    tauto
  · have hg : GlobFailed (globPhase e (normPhase o e (qpPhase o s))) (e.glob s.iter s.x) := by
      refine ⟨h1, ?_⟩
      simp [globPhase, normPhase, qpPhase, Ev.glob?]
    refine ⟨fun hs => absurd hs h1, fun _ => Or.inr hg, fun _ => Or.inr (Or.inl hg),
      fun _ => Or.inr hg, fun _ => Or.inr hg, fun _ => Or.inr hg, fun _ => Or.inr hg, Or.inr hg⟩

/-- C15, converse direction: the solver does not pass over a termination criterion.  In every
iteration before the one it returned in, no residual was NaN, some residual was not below its
tolerance, the step was not below the minimal step norm, the cost not below the unboundedness
threshold, the QP was solved (or stopped at its iteration limit) and globalization succeeded. -/
theorem C15_stops_at_first_criterion (o : Opts K) (e : Env K X) (p : Persist K) (x0 : X)
    (st : Status) (s : St K X) (hM : 0 ≤ o.maxIter) (h : solve o e p x0 = .ret st s) :
    ∀ j < s.iter, NoStop o e x0 j ∧
      ((st ≠ .qpFailure ∨ j + 1 < s.iter ∨ GlobFailed s st) →
        QpOk (e.qp j (traj e x0 j)) ∧ e.glob j (traj e x0 j) = .success) := by
  have hend := solve_ending hM h
  rcases hend with ⟨_, _, hm, hc⟩ | ⟨s, hm, hc, h1, h2⟩ | ⟨s, hm, hc, hq, h1⟩
  · exact fun j hj => ⟨hm.cont j hj, fun _ => hm.qpok j hj⟩
  · intro j hj
    rcases Nat.lt_succ_iff_lt_or_eq.1 hj with hj | hj
    · exact ⟨hm.cont j hj, fun _ => hm.qpok j hj⟩
    · subst hj
      refine ⟨noStop_of_check hm hc, ?_⟩
      rintro (hh | hh | hh)
      · exact absurd rfl hh
      · simp at hh
      · exfalso
        obtain ⟨hne, hl⟩ := hh
        have hgl := hm.gl
        simp only [qpPhase, globs_append, hgl] at hl
        simp [Ev.glob?] at hl
        have := List.mem_of_getLast? hl
        simp at this
  · exact fun j hj => ⟨hm.cont j hj, fun _ => hm.qpok j hj⟩

/-- C15: no other status is possible, provided the globalization itself returns only statuses of the
list (which `Merit.C15_merit_statuses` and `Funnel.C15_funnel_statuses` show for the two line
searches; fixed-step globalization always returns SUCCESS). -/
theorem C15_closed_list (o : Opts K) (e : Env K X) (p : Persist K) (x0 : X) (st : Status)
    (s : St K X) (hM : 0 ≤ o.maxIter)
    (hg : ∀ k x, e.glob k x ∈ [Status.success, .nanDetected, .minStep, .qpFailure])
    (h : solve o e p x0 = .ret st s) :
    st ∈ [Status.success, .maxIter, .nanDetected, .minStep, .unbounded, .timeout, .qpFailure] := by
  have hend := solve_ending hM h
  rcases hend with ⟨_, _, hm, hc⟩ | ⟨s, hm, hc, h1, h2⟩ | ⟨s, hm, hc, hq, h1⟩
  · unfold checkTermination at hc
    split_ifs at hc <;> simp only [Option.some.injEq] at hc <;> subst hc <;> simp
  · simp
  · have := hg s.iter s.x
    simp only [List.mem_cons, List.not_mem_nil, or_false] at this ⊢
    tauto

/-- C15, what is not covered by `C15_status_meaning`: the setter accepts a negative `max_iter`
(ocp_nlp_common.c:1554-1566); the loop is then never entered and the solver reports SUCCESS
without evaluating anything. -/
theorem C15_negative_max_iter_success (o : Opts K) (e : Env K X) (p : Persist K) (x0 : X)
    (h : o.maxIter < 0) : ∃ s, solve o e p x0 = .ret .success s ∧ s.x = x0 ∧ s.log = [] := by
  refine ⟨start o p x0, ?_, rfl, rfl⟩
  unfold solve solveFuel loop
  rw [if_neg]
  simp only [start]
  omega


/-- concrete options and problem for the examples: scalar iterate, residuals equal to the iterate,
each step halves it -/
def exOpts : Opts ℚ :=
  { maxIter := 10, evalResAtMaxIter := false
    tolStat := .fin (1/10), tolEq := .fin (1/10), tolIneq := .fin (1/10), tolComp := .fin (1/10)
    tolMinStep := (0 : Dbl), tolUnbounded := .fin (-10000000000)
    timeoutMax := 0, heur := .zero, warmStartFirst := false, qpWarmStart := 1
    storeIterates := true, logPrimalStep := false, logDualStep := false, withAnderson := false
    printing := false, needsObj := false, extQpRes := false }

def exEnv : Env ℚ ℚ :=
  { res := fun x => ⟨.fin x, .fin x, .fin x, .fin x⟩
    cost := fun x => .fin x
    toc := fun k => (k : ℚ) / 100
    qp := fun _ _ => .success
    stepNorm := fun _ x => .fin (x / 2)
    glob := fun _ _ => .success
    globX := fun _ x => x / 2
    globCost := fun _ _ c => c }

def exPersist : Persist ℚ :=
  { mem := createMem 10 false 1, est := 0, res := ⟨.fin 0, .fin 0, .fin 0, .fin 0⟩
    cost := .fin 0, timeTot := 0 }

/-- status, iteration count, returned iterate, warm-start levels of the QPs, stored iterates -/
def summary : Out ℚ ℚ → Option (Status × Nat × ℚ × List Int × List (Nat × ℚ))
  | .ret st s => some (st, s.iter, s.x, qps s.log, stores s.log)
  | _ => none

instance : DecidableEq (List Int × List (Nat × ℚ)) := inferInstance
instance : DecidableEq (ℚ × List Int × List (Nat × ℚ)) := inferInstance
instance instDecidableEqSummary :
    DecidableEq (Option (Status × Nat × ℚ × List Int × List (Nat × ℚ))) := inferInstance

/-- a run that ends with SUCCESS after four iterations -/
example : summary (solve exOpts exEnv exPersist 1) =
    some (.success, 4, 1/16, [0, 1, 1, 1], [(0, 1), (1, 1/2), (2, 1/4), (3, 1/8), (4, 1/16)]) := by
  decide +kernel

/-- the same with an iteration limit of two: MAXITER -/
example : summary (solve { exOpts with maxIter := 2 } exEnv exPersist 1) =
    some (.maxIter, 2, 1/4, [0, 1], [(0, 1), (1, 1/2)]) := by decide +kernel

/-- C15 is false as stated for NAN_DETECTED: with `max_iter = 0` and without
`eval_residual_at_max_iter` the residuals of an earlier call are tested; the iterate of this call is
never evaluated. -/
theorem C15_stale_nan :
    summary (solve { exOpts with maxIter := 0 } exEnv
      { exPersist with res := ⟨.nan, .fin 0, .fin 0, .fin 0⟩ } 0) =
      some (.nanDetected, 0, 0, [], []) ∧ ¬ (exEnv.res 0).HasNan := by
  refine ⟨by decide +kernel, by simp [Res.HasNan, exEnv]⟩

/-- C15 is false as stated for UNBOUNDED: when the globalization does not need the objective
(fixed step), `cost_value` is never refreshed by the loop, so a value left over from before decides. -/
theorem C15_stale_unbounded :
    summary (solve exOpts exEnv { exPersist with cost := .fin (-20000000000) } 1) =
      some (.unbounded, 0, 1, [], [(0, 1)]) ∧ ¬ exEnv.cost 1 ≤ exOpts.tolUnbounded := by
  refine ⟨by decide +kernel, by decide +kernel⟩

/-! ## C16 -/

/-- C16: the solver always stops. -/
theorem C16_terminates (o : Opts K) (e : Env K X) (p : Persist K) (x0 : X) :
    solve o e p x0 ≠ .running :=
  loop_running _ (by simp [start])

theorem levels_length (o : Opts K) (p : Persist K) (n : Nat) : (levels o p n).length = n := by
  cases n <;> simp [levels]

/-- C16: at most `max_iter` QPs are solved; the reported iteration count is the number of solved
QPs, except that a failed globalization is not counted.  The last conjunct: all accesses to the
statistics table, the stored iterates and the step-norm logs are in bounds if the tables were
created with at least this `max_iter`. -/
theorem C16_bounded (o : Opts K) (e : Env K X) (p : Persist K) (x0 : X) (st : Status)
    (s : St K X) (hM : 0 ≤ o.maxIter) (h : solve o e p x0 = .ret st s) :
    ((qps s.log).length : Int) ≤ o.maxIter ∧
    (¬ GlobFailed s st → (qps s.log).length = s.iter) ∧
    (GlobFailed s st → (qps s.log).length = s.iter + 1) ∧
    (∀ m0 : Nat, o.maxIter ≤ m0 → p.mem = createMem m0 o.extQpRes p.mem.warmStart →
      ∀ ev ∈ s.log, EvInBounds p.mem.statM p.mem.statN (m0 + 1) m0 ev) := by
  have hend := solve_ending hM h
  have mono : ∀ (l : List (Ev K X)),
      (∀ ev ∈ l, EvInBounds p.mem.statM (if o.extQpRes then 11 else 7)
        (o.maxIter + 1).toNat o.maxIter.toNat ev) →
      ∀ m0 : Nat, o.maxIter ≤ m0 → p.mem = createMem m0 o.extQpRes p.mem.warmStart →
      ∀ ev ∈ l, EvInBounds p.mem.statM p.mem.statN (m0 + 1) m0 ev := by
    intro l hl m0 hm0 hp ev hev
    have := hl ev hev
    have hN : p.mem.statN = if o.extQpRes then 11 else 7 := by rw [hp]; rfl
    rw [hN]
    cases ev <;> simp only [EvInBounds] at this ⊢ <;> first | exact this | omega
  rcases hend with ⟨_, _, hm, hc⟩ | ⟨s, hm, hc, h1, h2⟩ | ⟨s, hm, hc, hq, h1⟩
  · have hle := hm.iterLe
    refine ⟨?_, ?_, ?_, mono _ hm.bounds⟩
    · rw [hm.hqps, levels_length]; exact hle
    · intro _; rw [hm.hqps, levels_length]
    · rintro ⟨hne, hl⟩
      rw [hm.gl] at hl
      have := List.mem_of_getLast? hl
      exact absurd (List.eq_of_mem_replicate this) hne
  · obtain ⟨-, hlt, -⟩ := check_none hc
    have hq := qps_qpPhase hm
    have hb := qp_bounds hm hlt
    refine ⟨?_, ?_, ?_, mono _ hb⟩
    · simp only; rw [hq, levels_length]; omega
    · intro _; simp only; rw [hq, levels_length]
    · rintro ⟨hne, hl⟩
      have hgl := hm.gl
      simp only [qpPhase, globs_append, hgl] at hl
      simp [Ev.glob?] at hl
      have := List.mem_of_getLast? hl
      simp at this
  · obtain ⟨-, hlt, -⟩ := check_none hc
    have hq := qps_qpPhase hm
    have hb := norm_bounds hm hlt
    have hq' : qps (globPhase e (normPhase o e (qpPhase o s))).log = levels o p (s.iter + 1) := by
      rw [← hq]; simp [globPhase, normPhase, Ev.qp?]
    refine ⟨?_, ?_, ?_, mono _ hb⟩
    · rw [hq', levels_length]; push_cast; omega
    · intro hng
      exfalso
      apply hng
      refine ⟨h1, ?_⟩
      simp [globPhase, normPhase, qpPhase, Ev.glob?]
    · intro _; rw [hq', levels_length]; rfl

/-- C16 does not hold if `max_iter` is raised after creation (the C setter does not refuse it):
with tables created for `max_iter = 1` and `max_iter := 3` set later, the third iterate is stored
outside the array of two. -/
theorem C16_raised_max_iter_out_of_bounds :
    ∃ st s, solve { exOpts with maxIter := 3 } exEnv { exPersist with mem := createMem 1 false 1 } 1
      = .ret st s ∧ ∃ ev ∈ s.log, ¬ EvInBounds 2 7 2 1 ev := by
  have hex : ∀ r : Out ℚ ℚ, (∃ st s, r = .ret st s ∧ (2, (1/4 : ℚ)) ∈ stores s.log) →
      ∃ st s, r = .ret st s ∧ ∃ ev ∈ s.log, ¬ EvInBounds 2 7 2 1 ev := by
    rintro r ⟨st, s, rfl, hmem⟩
    refine ⟨st, s, rfl, ?_⟩
    unfold stores at hmem
    obtain ⟨ev, hev, he⟩ := List.mem_filterMap.1 hmem
    refine ⟨ev, hev, ?_⟩
    cases ev <;> simp [Ev.store?] at he
    simp [EvInBounds, he.1]
  apply hex
  have hs : summary (solve { exOpts with maxIter := 3 } exEnv
      { exPersist with mem := createMem 1 false 1 } 1) =
      some (.maxIter, 3, 1/8, [0, 1, 1], [(0, 1), (1, 1/2), (2, 1/4)]) := by decide +kernel
  cases hr : solve { exOpts with maxIter := 3 } exEnv
      { exPersist with mem := createMem 1 false 1 } 1 with
  | abort => rw [hr] at hs; simp [summary] at hs
  | running => rw [hr] at hs; simp [summary] at hs
  | ret st s =>
    rw [hr] at hs
    simp only [summary, Option.some.injEq, Prod.mk.injEq] at hs
    refine ⟨st, s, rfl, ?_⟩
    rw [hs.2.2.2.2]
    simp

/-! ## C17 -/

/-- C17: with `timeout_max_time <= 0` the loop itself never reports TIMEOUT and never reads the
clock for it. -/
theorem C17_off (o : Opts K) (e : Env K X) (p : Persist K) (x0 : X) (st : Status)
    (s : St K X) (hM : 0 ≤ o.maxIter) (ht : o.timeoutMax ≤ 0) (h : solve o e p x0 = .ret st s) :
    (st = .timeout → GlobFailed s st) ∧ clocks s.log = [] := by
  constructor
  · intro hst
    rcases (C15_status_meaning o e p x0 st s hM h).2.2.2.2.2.1 hst with h1 | h1
    · exact absurd h1.1 (not_lt.2 ht)
    · exact h1
  · have hend := solve_ending hM h
    rcases hend with ⟨_, _, hm, hc⟩ | ⟨s, hm, hc, h1, h2⟩ | ⟨s, hm, hc, hq, h1⟩
    · rw [hm.hclocks, if_neg (not_lt.2 ht)]
    · have := hm.hclocks
      rw [if_neg (not_lt.2 ht)] at this
      simp [qpPhase, Ev.clock?, this]
    · have := hm.hclocks
      rw [if_neg (not_lt.2 ht)] at this
      simp [globPhase, normPhase, qpPhase, Ev.clock?, this]

/-- C17: with `timeout_max_time > 0` the clock is read once per iteration.  Every iteration but the
last one read had elapsed time plus predicted duration below the limit; if the limit is reached at
reading `j`, that reading is the last one, no further QP is solved and the call returns in iteration
`j`; and the prediction kept for later calls is the prediction after the last reading. -/
theorem C17_stops (o : Opts K) (e : Env K X) (p : Persist K) (x0 : X) (st : Status)
    (s : St K X) (hM : 0 ≤ o.maxIter) (ht : 0 < o.timeoutMax) (h : solve o e p x0 = .ret st s) :
    ∃ n, clocks s.log = (List.range (n + 1)).map e.toc ∧
      (∀ j < n, e.toc j + predicted o.heur p.est (durations e.toc j) < o.timeoutMax) ∧
      (o.timeoutMax ≤ e.toc n + predicted o.heur p.est (durations e.toc n) →
        s.iter = n ∧ (qps s.log).length = n ∧ st ≠ .qpFailure) ∧
      s.est = predicted o.heur p.est (durations e.toc n) := by
  have hend := solve_ending hM h
  rcases hend with ⟨_, _, hm, hc⟩ | ⟨s, hm, hc, h1, h2⟩ | ⟨s, hm, hc, hq, h1⟩
  · refine ⟨s.iter, ?_, hm.passed ht, ?_, hm.hest ht⟩
    · rw [hm.hclocks, if_pos ht]
    · intro _
      refine ⟨rfl, by rw [hm.hqps, levels_length], ?_⟩
      unfold checkTermination at hc
      split_ifs at hc <;> simp only [Option.some.injEq] at hc <;> subst hc <;> simp
  · obtain ⟨-, -, htm⟩ := check_none hc
    have htm := htm ht
    rw [hm.tot ht, hm.hest ht] at htm
    have hcl := hm.hclocks
    rw [if_pos ht] at hcl
    refine ⟨s.iter, ?_, hm.passed ht, fun hle => absurd hle (not_le.2 htm), ?_⟩
    · simp [qpPhase, Ev.clock?, hcl]
    · simpa [qpPhase] using hm.hest ht
  · obtain ⟨-, -, htm⟩ := check_none hc
    have htm := htm ht
    rw [hm.tot ht, hm.hest ht] at htm
    have hcl := hm.hclocks
    rw [if_pos ht] at hcl
    refine ⟨s.iter, ?_, hm.passed ht, fun hle => absurd hle (not_le.2 htm), ?_⟩
    · simp [globPhase, normPhase, qpPhase, Ev.clock?, hcl]
    · simpa [globPhase, normPhase, qpPhase] using hm.hest ht

/-- C17, across calls: with MAX_OVERALL the prediction kept after a call is the maximum of the one
before and all durations of the call; it never decreases. -/
theorem C17_max_overall (o : Opts K) (e : Env K X) (p : Persist K) (x0 : X) (st : Status)
    (s : St K X) (hM : 0 ≤ o.maxIter) (ht : 0 < o.timeoutMax) (hh : o.heur = .maxOverall)
    (h : solve o e p x0 = .ret st s) :
    p.est ≤ s.est ∧ (∀ j, j + 1 < (clocks s.log).length → e.toc (j + 1) - e.toc j ≤ s.est) ∧
    (s.est = p.est ∨ ∃ j, j + 1 < (clocks s.log).length ∧ s.est = e.toc (j + 1) - e.toc j) := by
  obtain ⟨n, hcl, -, -, hest⟩ := C17_stops o e p x0 st s hM ht h
  rw [hest, hcl, hh]
  simp only [predicted, List.length_map, List.length_range]
  clear hcl hest h
  induction n with
  | zero => simp [durations]
  | succ n ih =>
    rw [durations_succ, List.foldl_append]
    simp only [List.foldl_cons, List.foldl_nil]
    obtain ⟨i1, i2, i3⟩ := ih
    refine ⟨le_max_of_le_left i1, ?_, ?_⟩
    · intro j hj
      rcases Nat.lt_or_ge (j + 1) (n + 1) with hl | hl
      · exact le_max_of_le_left (i2 j hl)
      · have : j = n := by omega
        subst this
        exact le_max_right _ _
    · rcases le_total (List.foldl max p.est (durations e.toc n)) (e.toc (n + 1) - e.toc n) with hl | hl
      · right
        exact ⟨n, by omega, max_eq_right hl⟩
      · rw [max_eq_left hl]
        rcases i3 with i3 | ⟨j, hj, i3⟩
        · exact Or.inl i3
        · exact Or.inr ⟨j, by omega, i3⟩

/-- C17, AVERAGE: what the code computes is not the average of the durations: it starts from zero
(the branch meant to start the average at the first duration is unreachable), so for iterations of
constant duration `d` the prediction after `n` of them is `(1 - 2^-n) d`, half of `d` after the
first. -/
theorem C17_average_underestimates (d m0 : K) (n : Nat) :
    predicted .average m0 (List.replicate n d) = (1 - (1 / 2) ^ n) * d := by
  induction n with
  | zero => simp [predicted]
  | succ n ih =>
    rw [List.replicate_succ', predicted, List.foldl_append]
    simp only [predicted] at ih
    rw [ih]
    simp only [List.foldl_cons, List.foldl_nil]
    ring

/-- an iteration limit, a clock and a timeout that fires in iteration 3 -/
example : summary (solve { exOpts with timeoutMax := 4/100, heur := .last } exEnv exPersist 1) =
    some (.timeout, 3, 1/8, [0, 1, 1], [(0, 1), (1, 1/2), (2, 1/4), (3, 1/8)]) := by decide +kernel

/-! ## C18 -/

/-- C18, one call: the first QP of a call is solved cold if `warm_start_first_qp` is off and with
the solver's current level otherwise; all later QPs with the configured level; and after a call that
solved at least one QP the solver's level is the configured one.  A call that stops before its first
QP does not touch the level. -/
theorem C18_levels (o : Opts K) (e : Env K X) (p : Persist K) (x0 : X) (st : Status)
    (s : St K X) (hM : 0 ≤ o.maxIter) (h : solve o e p x0 = .ret st s) :
    (qps s.log).head? = (if (qps s.log) = [] then none else
      some (if o.warmStartFirst then p.mem.warmStart else 0)) ∧
    (∀ w ∈ (qps s.log).tail, w = o.qpWarmStart) ∧
    s.mem.warmStart = if qps s.log = [] then p.mem.warmStart else o.qpWarmStart := by
  have lev : ∀ n, (levels o p n).head? = (if levels o p n = [] then none else
      some (if o.warmStartFirst then p.mem.warmStart else 0)) ∧
      ∀ w ∈ (levels o p n).tail, w = o.qpWarmStart := by
    intro n
    cases n with
    | zero => simp [levels]
    | succ n => exact ⟨by simp [levels], fun w hw => List.eq_of_mem_replicate hw⟩
  have hend := solve_ending hM h
  rcases hend with ⟨_, _, hm, hc⟩ | ⟨s, hm, hc, h1, h2⟩ | ⟨s, hm, hc, hq, h1⟩
  · rw [hm.hqps]
    refine ⟨(lev _).1, (lev _).2, ?_⟩
    rw [hm.ws]
    cases hi : s.iter <;> simp [levels]
  · have hq := qps_qpPhase hm
    simp only
    rw [hq]
    refine ⟨(lev _).1, (lev _).2, ?_⟩
    have := hm.ws
    simp only [qpPhase, levels, reduceCtorEq, if_false, this]
    split_ifs <;> rfl
  · have hq' : qps (globPhase e (normPhase o e (qpPhase o s))).log = levels o p (s.iter + 1) := by
      rw [← qps_qpPhase hm]; simp [globPhase, normPhase, Ev.qp?]
    rw [hq']
    refine ⟨(lev _).1, (lev _).2, ?_⟩
    have := hm.ws
    simp only [globPhase, normPhase, qpPhase, levels, reduceCtorEq, if_false, this]
    split_ifs <;> rfl

/-- a user action: configure the warm-start level, or solve (the rest of the options, the problem
and the start iterate may differ from call to call) -/
inductive Act (K X : Type*) where
  | setWarmStart (v : Int)
  | solve (o : Opts K) (e : Env K X) (x : X)

/-- run a history of user actions; `none` if a call aborts.  The level configured last is the
`qp_warm_start` of every later call. -/
def runActs : Opts K × Persist K → List (Act K X) → Option (Opts K × Persist K)
  | op, [] => some op
  | (o, p), .setWarmStart v :: as => runActs (setQpWarmStart o p v) as
  | (o, p), .solve o' e x :: as =>
    match solve { o' with qpWarmStart := o.qpWarmStart } e p x with
    | .ret _ s => runActs ({ o' with qpWarmStart := o.qpWarmStart }, s.persist) as
    | _ => none

/-- C18: once the user has configured a level (or the solver's default agrees with it), the level
stored in the QP solver equals the configured level after every history of calls and settings,
whatever way each call ends. -/
theorem C18_level_restored (as : List (Act K X)) (o : Opts K) (p : Persist K) (o' : Opts K)
    (p' : Persist K) (h0 : p.mem.warmStart = o.qpWarmStart)
    (h : runActs (X := X) (o, p) as = some (o', p')) : p'.mem.warmStart = o'.qpWarmStart := by
  induction as generalizing o p with
  | nil =>
    simp only [runActs, Option.some.injEq, Prod.mk.injEq] at h
    obtain ⟨rfl, rfl⟩ := h
    exact h0
  | cons a as ih =>
    cases a with
    | setWarmStart v => exact ih _ _ rfl h
    | solve o1 e x =>
      simp only [runActs] at h
      split at h
      · next st s hs =>
        refine ih _ _ ?_ h
        simp only [St.persist]
        by_cases hM : 0 ≤ o1.maxIter
        · have := (C18_levels _ _ _ _ _ _ (by simpa using hM) hs).2.2
          rw [this]
          split_ifs
          · exact h0
          · rfl
        · obtain ⟨s2, hs2, -, -⟩ := C15_negative_max_iter_success
            { o1 with qpWarmStart := o.qpWarmStart } e p x (by simpa using hM)
          have : s = start { o1 with qpWarmStart := o.qpWarmStart } p x := by
            unfold solve solveFuel loop at hs
            rw [if_neg (by simp only [start]; omega)] at hs
            simp only [Out.ret.injEq] at hs
            exact hs.2.symm
          rw [this]
          exact h0
      · simp at h

/-- C18 needs the level to have been configured: the default kept by the NLP solver is 0
(ocp_nlp_common.c:1270) while DAQP, qpOASES and OSQP start with level 1 (dense_qp_daqp.c:102,
dense_qp_qpoases.c:117, ocp_qp_osqp.c:997); a call then changes the QP solver's level from 1 to 0. -/
theorem C18_unconfigured_level_overwritten :
    (runActs (X := ℚ) ({ exOpts with qpWarmStart := 0 },
      { exPersist with mem := createMem 10 false 1 }) [.solve exOpts exEnv 1]).map
        (fun r => r.2.mem.warmStart) = some 0 := by decide +kernel

/-- the hypotheses of `C18_level_restored` hold for a history with two settings and three calls -/
example : (runActs (X := ℚ) (exOpts, exPersist)
    [.solve exOpts exEnv 1, .setWarmStart 2, .solve exOpts exEnv 1,
     .solve { exOpts with maxIter := 0 } exEnv 1]).map (fun r => (r.2.mem.warmStart, r.1.qpWarmStart))
    = some (2, 2) := by decide +kernel

/-! ## C53: stored iterates -/

/-- C53: with `store_iterates`, entry `k` of the stored iterates is the iterate from which iteration
`k` started, for all `k` below the reported iteration count; the final iterate is stored too, unless
the call ended at the iteration limit without evaluating residuals or in a failed QP. -/
theorem C53_stored_iterates (o : Opts K) (e : Env K X) (p : Persist K) (x0 : X) (st : Status)
    (s : St K X) (hM : 0 ≤ o.maxIter) (hs : o.storeIterates = true)
    (h : solve o e p x0 = .ret st s) :
    (∀ k < s.iter, (k, traj e x0 k) ∈ stores s.log) ∧
    (∀ k y, (k, y) ∈ stores s.log → y = traj e x0 k ∧ k ≤ s.iter) ∧
    ((stores s.log).map (·.1)).Nodup ∧
    (st = .success → (s.iter, s.x) ∈ stores s.log) := by
  have key : ∀ n, ∀ l : List (Nat × X), l = (List.range n).map (fun k => (k, traj e x0 k)) →
      (∀ k < n, (k, traj e x0 k) ∈ l) ∧ (∀ k y, (k, y) ∈ l → y = traj e x0 k ∧ k < n) ∧
      (l.map (·.1)).Nodup := by
    rintro n l rfl
    refine ⟨?_, ?_, ?_⟩
    · intro k hk
      exact List.mem_map.2 ⟨k, List.mem_range.2 hk, rfl⟩
    · intro k y hy
      obtain ⟨j, hj, he⟩ := List.mem_map.1 hy
      simp only [Prod.mk.injEq] at he
      obtain ⟨rfl, rfl⟩ := he
      exact ⟨rfl, List.mem_range.1 hj⟩
    · rw [List.map_map]
      have : ((fun x : Nat × X => x.1) ∘ fun k => (k, traj e x0 k)) = id := rfl
      rw [this, List.map_id]
      exact List.nodup_range
  have mid : ∀ s : St K X, Mid o e p x0 s →
      (Evald o s.iter → stores s.log = (List.range (s.iter + 1)).map fun k => (k, traj e x0 k)) ∧
      (¬ Evald o s.iter → stores s.log = (List.range s.iter).map fun k => (k, traj e x0 k)) := by
    intro s hm
    have := hm.hstores
    rw [if_pos hs] at this
    constructor
    · intro hE
      rw [this, if_pos hE, List.range_succ]; simp
    · intro hE
      rw [this, if_neg hE]; simp
  have hend := solve_ending hM h
  rcases hend with ⟨_, _, hm, hc⟩ | ⟨s, hm, hc, h1, h2⟩ | ⟨s, hm, hc, hq, h1⟩
  · by_cases hE : Evald o s.iter
    · obtain ⟨k1, k2, k3⟩ := key _ _ ((mid s hm).1 hE)
      refine ⟨fun k hk => k1 k (by omega), fun k y hy => ?_, k3, fun _ => ?_⟩
      · have := k2 k y hy; exact ⟨this.1, by omega⟩
      · rw [hm.hx]; exact k1 _ (by omega)
    · obtain ⟨k1, k2, k3⟩ := key _ _ ((mid s hm).2 hE)
      refine ⟨fun k hk => k1 k (by omega), fun k y hy => ?_, k3, fun hst => ?_⟩
      · have := k2 k y hy; exact ⟨this.1, by omega⟩
      · exfalso
        subst hst
        unfold checkTermination at hc
        unfold Evald at hE
        rw [not_or, not_not] at hE
        have he : o.evalResAtMaxIter = false := by simpa using hE.2
        have hge : (s.iter : Int) ≥ o.maxIter := by omega
        split_ifs at hc with c1 c2
        all_goals simp_all
  · obtain ⟨-, hlt, -⟩ := check_none hc
    have hE : Evald o s.iter := Or.inl (by omega)
    have hst := (mid s hm).1 hE
    have hst' : stores ({ qpPhase o s with iter := s.iter + 1 } : St K X).log = stores s.log := by
      simp [qpPhase, Ev.store?]
    obtain ⟨k1, k2, k3⟩ := key _ _ hst
    rw [hst']
    refine ⟨fun k hk => k1 k (by simpa using hk), fun k y hy => ?_, k3, fun hst => by simp at hst⟩
    have := k2 k y hy; exact ⟨this.1, by simp; omega⟩
  · obtain ⟨-, hlt, -⟩ := check_none hc
    have hE : Evald o s.iter := Or.inl (by omega)
    have hst := (mid s hm).1 hE
    have hst' : stores (globPhase e (normPhase o e (qpPhase o s))).log = stores s.log := by
      simp [globPhase, normPhase, qpPhase, Ev.store?]
    obtain ⟨k1, k2, k3⟩ := key _ _ hst
    rw [hst']
    have hit : (globPhase e (normPhase o e (qpPhase o s))).iter = s.iter := rfl
    rw [hit]
    refine ⟨fun k hk => k1 k (by omega), fun k y hy => ?_, k3, fun hst => absurd hst h1⟩
    have := k2 k y hy; exact ⟨this.1, by omega⟩

/-! ## C45: statistics getter -/

/-- C45: the table handed to the user has `min(stat_m, iter+1)` rows; in column-major order, column 0
is the iteration index and column `j+1` is entry `j` of the recorded row; nothing else of the
caller's array is written. -/
theorem C45_statistics_layout {D : Type*} (ofNat : Nat → D) (statM statN iter : Nat)
    (stat a : Nat → D) :
    let rows := min statM (iter + 1)
    let out := applyWrites (statGetter ofNat statM statN iter stat) a
    (∀ i < rows, out i = ofNat i) ∧
    (∀ i < rows, ∀ j < statN, out (i + (j + 1) * rows) = stat (j + i * statN)) ∧
    (∀ k, (statN + 1) * rows ≤ k → out k = a k) := by
  intro rows out
  have hrows : statRows statM iter = rows := by
    unfold statRows; simp only [rows]; split <;> omega
  -- a write list whose entries agree with a function `f` on its keys
  have gen : ∀ (ws : List (Nat × D)) (f : Nat → D) (a : Nat → D), (∀ w ∈ ws, w.2 = f w.1) →
      (∀ k, (∃ w ∈ ws, w.1 = k) → applyWrites ws a k = f k) ∧
      (∀ k, (∀ w ∈ ws, w.1 ≠ k) → applyWrites ws a k = a k) := by
    intro ws f
    induction ws with
    | nil => intro a _; simp [applyWrites]
    | cons w ws ih =>
      intro a hw
      have hstep : applyWrites (w :: ws) a = applyWrites ws (Function.update a w.1 w.2) := rfl
      obtain ⟨ih1, ih2⟩ := ih (Function.update a w.1 w.2) fun w' hw' => hw w' (List.mem_cons_of_mem _ hw')
      rw [hstep]
      constructor
      · rintro k ⟨w', hw', rfl⟩
        by_cases hin : ∃ w'' ∈ ws, w''.1 = w'.1
        · exact ih1 _ hin
        · rw [ih2 _ fun w'' h'' he => hin ⟨w'', h'', he⟩]
          rcases List.mem_cons.1 hw' with rfl | hw'
          · simp [hw]
          · exact absurd ⟨w', hw', rfl⟩ hin
      · intro k hk
        rw [ih2 k fun w' hw' => hk w' (List.mem_cons_of_mem _ hw')]
        exact Function.update_of_ne (hk w (List.mem_cons_self)).symm _ _
  -- the intended contents
  let f : Nat → D := fun k =>
    if k < rows then ofNat k else stat ((k / rows - 1) + (k % rows) * statN)
  have hmem : ∀ w, w ∈ statGetter ofNat statM statN iter stat ↔
      ∃ i < rows, w = (i, ofNat i) ∨ ∃ j < statN, w = (i + (j + 1) * rows, stat (j + i * statN)) := by
    intro w
    simp only [statGetter, hrows, List.mem_flatMap, List.mem_range, List.mem_cons, List.mem_map,
      Nat.add_zero]
    constructor
    · rintro ⟨i, hi, rfl | ⟨j, hj, rfl⟩⟩
      · exact ⟨i, hi, Or.inl rfl⟩
      · exact ⟨i, hi, Or.inr ⟨j, hj, rfl⟩⟩
    · rintro ⟨i, hi, rfl | ⟨j, hj, rfl⟩⟩
      · exact ⟨i, hi, Or.inl rfl⟩
      · exact ⟨i, hi, Or.inr ⟨j, hj, rfl⟩⟩
  have hf2 : ∀ i < rows, ∀ j, f (i + (j + 1) * rows) = stat (j + i * statN) := by
    intro i hi j
    have h1 : ¬ i + (j + 1) * rows < rows := by
      have : rows ≤ (j + 1) * rows := Nat.le_mul_of_pos_left _ (by omega)
      omega
    have h2 : (i + (j + 1) * rows) / rows = j + 1 := by
      rw [Nat.add_mul_div_right _ _ (by omega), Nat.div_eq_of_lt hi]; omega
    have h3 : (i + (j + 1) * rows) % rows = i := by
      rw [Nat.add_mul_mod_self_right, Nat.mod_eq_of_lt hi]
    simp only [f, h1, if_false, h2, h3]
    congr 1
  have hw : ∀ w ∈ statGetter ofNat statM statN iter stat, w.2 = f w.1 := by
    intro w hw
    obtain ⟨i, hi, rfl | ⟨j, hj, rfl⟩⟩ := (hmem w).1 hw
    · simp [f, hi]
    · exact (hf2 i hi j).symm
  obtain ⟨g1, g2⟩ := gen _ f a hw
  refine ⟨?_, ?_, ?_⟩
  · intro i hi
    have := g1 i ⟨(i, ofNat i), (hmem _).2 ⟨i, hi, Or.inl rfl⟩, rfl⟩
    simpa [f, hi] using this
  · intro i hi j hj
    have := g1 (i + (j + 1) * rows)
      ⟨(i + (j + 1) * rows, stat (j + i * statN)), (hmem _).2 ⟨i, hi, Or.inr ⟨j, hj, rfl⟩⟩, rfl⟩
    rw [hf2 i hi j] at this
    exact this
  · intro k hk
    apply g2
    intro w hw he
    obtain ⟨i, hi, rfl | ⟨j, hj, rfl⟩⟩ := (hmem w).1 hw
    · simp only at he
      have : rows ≤ (statN + 1) * rows := Nat.le_mul_of_pos_left _ (by omega)
      omega
    · simp only at he
      have : (j + 2) * rows ≤ (statN + 1) * rows := Nat.mul_le_mul_right _ (by omega)
      have h2 : (j + 2) * rows = (j + 1) * rows + rows := by ring
      omega

/-- a call that ended in iteration 3 of a table with 11 rows and 7 columns -/
example : min 11 (3 + 1) = 4 ∧
    applyWrites (statGetter (fun n => n) 11 7 3 (fun k => 100 + k)) (fun _ => 0) (2 + (6 + 1) * 4)
      = 100 + (6 + 2 * 7) := by decide +kernel

end Acados.Sqp
