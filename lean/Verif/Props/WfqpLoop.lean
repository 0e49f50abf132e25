import Verif.Lemmas.WfqpLoop
import Mathlib.Tactic.NormNum
/-!
# Properties of the loop of SQP_WITH_FEASIBLE_QP: search direction modes (C22), status and tables (C59),
regularisation (C60), warm start (C18)

`p.regPtr = .nominal` holds after creation (`create`) and after every call (`C60_pointer`).
-/
namespace Acados.WfqpLoop
open Acados.Sqp (predicted durations Res Heur)
variable {K X : Type*} [Field K] [LinearOrder K] [IsStrictOrderedRing K]

theorem ending_core {o : Opts K} {e : Env K X} {p : Persist K} {x0 : X} {s : St K X}
    (h : Ending o e p x0 s) :
    Core o e p.warmStart p.statM (o.maxIter + 1).toNat o.maxIter.toNat s := by
  rcases h with ⟨s, st, hi, hc⟩ | ⟨s, hi, hc, hr⟩ | ⟨s, hi, hc, hr, hg⟩
  · exact ⟨hi.core.ok, hi.core.mode, hi.core.cnt, hi.core.reg, hi.core.ws⟩
  · exact (searchDir_step (e := e) hi.core hi.statM hi.hdirs hi.cnt).1
  · obtain ⟨a1, a2, a3, a4, a5⟩ := searchDir_step (e := e) hi.core hi.statM hi.hdirs hi.cnt
    have hl : ∃ k, lastQp (searchDir o e s).2.log = some (k, .success) ∧ k ≠ .feas := by
      rw [hr] at a5
      simp only [reduceCtorEq, false_and, or_false, true_and] at a5
      rcases a5.2 with ⟨-, -, h⟩ | ⟨-, -, -, h⟩
      · exact ⟨_, h, by simp⟩
      · exact ⟨_, h, by simp⟩
    have := (core_glob (e := e) (by rw [a2.1]; exact (check_none hc).2.1) a1 hl).1
    exact ⟨this.ok, this.mode, this.cnt, this.reg, this.ws⟩

section
variable (o : Opts K) (e : Env K X) (p : Persist K) (x0 : X) (s : St K X)
  (hM : 0 ≤ o.maxIter) (hp : p.regPtr = .nominal) (h : solve o e p x0 = .ret s)
include hM hp h

/-! ## C22 -/

/-- C22: the mode changes to Byrd-Omojokun only in nominal mode and only directly after a nominal QP
that was not solved. -/
theorem C22_to_byrd_omojokun (pre post : List (Ev X)) (hl : s.log = pre ++ .switch .bo :: post) :
    modeAfter o.mode pre = .nominal ∧ ∃ st, lastQp pre = some (.nominal, st) ∧ st ≠ .success :=
  ((ending_core (solve_ending hM hp h)).ok pre _ post hl).2

/-- C22: the mode changes back to nominal only if that is allowed and only when the number of relaxed
solutions with zero slacks since the last change to nominal mode (or since the start) equals the
configured number. -/
theorem C22_to_nominal (pre post : List (Ev X)) (hl : s.log = pre ++ .switch .nominal :: post) :
    modeAfter o.mode pre = .bo ∧ o.allow = true ∧ zeroSince pre = o.watchdogMax :=
  ((ending_core (solve_ending hM hp h)).ok pre _ post hl).2

/-- C22: "zero slacks" means that the infeasibility of the relaxed QP of this iteration, divided by the
number of relaxed constraints (at least 1), is below the tolerance of the inequality residual. -/
theorem C22_zero_slacks_meaning (pre post : List (Ev X)) (z : Bool)
    (hl : s.log = pre ++ .slack z :: post) :
    ∃ x, z = true ↔ e.l1 (dirs pre - 1) x / cmax 1 (e.nns : Dbl) < o.tolIneq :=
  ((ending_core (solve_ending hM hp h)).ok pre _ post hl).2

/-- C22: there are no other mode changes. -/
theorem C22_no_other_mode (pre post : List (Ev X)) (m : Mode)
    (hl : s.log = pre ++ .switch m :: post) : m = .bo ∨ m = .nominal := by
  have := ((ending_core (solve_ending hM hp h)).ok pre _ post hl).2
  cases m
  · exact Or.inr rfl
  · exact Or.inl rfl
  · exact this.elim
  · exact this.elim

/-- C22: the search direction is computed in the mode reached by the changes; for a positive configured
number the count of zero-slack solutions is then still below it (the change back is not missed). -/
theorem C22_mode_used (pre post : List (Ev X)) (m : Mode)
    (hl : s.log = pre ++ .direction m :: post) :
    m = modeAfter o.mode pre ∧
    (1 ≤ o.watchdogMax → o.allow = true → zeroSince pre < o.watchdogMax) :=
  ((ending_core (solve_ending hM hp h)).ok pre _ post hl).2

/-- C22: the plain nominal QP is solved in nominal mode only, the feasibility QP and the QP with relaxed
bounds in Byrd-Omojokun mode only, the latter only directly after a solved feasibility QP. -/
theorem C22_qp_matches_mode (pre post : List (Ev X)) (k : Kind) (st : Status) (w : Int)
    (hl : s.log = pre ++ .qp k st w :: post) :
    modeAfter o.mode pre = (if k = .nominal then .nominal else .bo) ∧
    (k = .bo → lastQp pre = some (.feas, .success)) :=
  have := ((ending_core (solve_ending hM hp h)).ok pre _ post hl).2
  ⟨this.1, this.2.1⟩

/-- C22: a step is taken only along the solution of a solved nominal QP (original or relaxed bounds). -/
theorem C22_step_from_solved_qp (pre post : List (Ev X)) (st : Status)
    (hl : s.log = pre ++ .glob st :: post) :
    lastQp pre = some (.nominal, .success) ∨ lastQp pre = some (.bo, .success) := by
  obtain ⟨k, h1, h2⟩ := ((ending_core (solve_ending hM hp h)).ok pre _ post hl).2
  cases k
  · exact Or.inl h1
  · exact absurd rfl h2
  · exact Or.inr h1

/-! ## C18 for this solver -/

/-- C18: all QPs of the first iteration start cold unless `warm_start_first_qp`, all others use the
configured level. -/
theorem C18_wfqp_levels (hw : p.warmStart = o.qpWarmStart) (pre post : List (Ev X)) (k : Kind)
    (st : Status) (w : Int) (hl : s.log = pre ++ .qp k st w :: post) :
    w = if dirs pre = 1 ∧ o.warmStartFirst = false then 0 else o.qpWarmStart :=
  ((ending_core (solve_ending hM hp h)).ok pre _ post hl).2.2.2.2 hw

/-- C18: the configured level is in place after the call. -/
theorem C18_wfqp_restored (hw : p.warmStart = o.qpWarmStart) : s.warmStart = o.qpWarmStart :=
  (ending_core (solve_ending hM hp h)).ws hw

/-! ## C60 -/

/-- C60: with the identity Hessian in the feasibility QP, the Hessian of the nominal QP has been
regularised exactly once in the current iteration when a nominal QP is solved. -/
theorem C60_regularised_once (hu : o.useCon = false) (pre post : List (Ev X)) (k : Kind)
    (st : Status) (w : Int) (hk : k ≠ .feas) (hl : s.log = pre ++ .qp k st w :: post) :
    regsSince .nominal pre = 1 :=
  ((ending_core (solve_ending hM hp h)).ok pre _ post hl).2.2.2.1 hu hk

/-- C60, negative part: the Hessian of the relaxed QP is never regularised, also not with
`use_constraint_hessian_in_feas_qp`, where ocp_nlp_sqp_with_feasible_qp.c:985-998 intends it: at that
point the regularisation module still points to the nominal QP. -/
theorem C60_relaxed_never_regularised (pre post : List (Ev X)) (t : Target)
    (hl : s.log = pre ++ .reg t :: post) : t = .nominal :=
  ((ending_core (solve_ending hM hp h)).ok pre _ post hl).2

/-- C60: the regularisation module points to the nominal QP after the call. -/
theorem C60_pointer : s.regPtr = .nominal := (ending_core (solve_ending hM hp h)).reg

/-! ## C59 -/

/-- C59: the returned status means what it says (`nonnegative max_iter`). -/
theorem C59_status_meaning :
    (s.status = .success → (e.res s.x).Below o.toOpts ∧ s.x = traj e x0 s.iter) ∧
    (s.status = .maxIter → (s.iter : Int) = o.maxIter ∨ GlobFailed s) ∧
    (s.status = .nanDetected → (e.res s.x).HasNan ∨ GlobFailed s ∨
      (o.maxIter = 0 ∧ o.evalResAtMaxIter = false ∧ p.res.HasNan)) ∧
    (s.status = .minStep →
      (0 < s.iter ∧ e.stepNorm (s.iter - 1) (traj e x0 (s.iter - 1)) < o.tolMinStep) ∨
      GlobFailed s) ∧
    (s.status = .unbounded →
      (o.needsObj = true → e.cost s.x ≤ o.tolUnbounded) ∨ GlobFailed s) ∧
    (s.status = .timeout →
      (0 < o.timeoutMax ∧ o.timeoutMax ≤
        e.toc s.iter + predicted o.heur p.est (durations e.toc s.iter)) ∨ GlobFailed s) ∧
    (s.status = .qpFailure → QpFailed e x0 s.iter ∨ GlobFailed s) ∧
    (s.status = .ready →
      (s.iter = 0 ∧ (o.mode = .feas ∨ o.mode = .other)) ∨ GlobFailed s) ∧
    (s.status ∈ [.success, .maxIter, .nanDetected, .minStep, .unbounded, .timeout, .qpFailure,
      .ready] ∨ GlobFailed s) := by
  rcases solve_ending hM hp h with ⟨s, st, hm, hc⟩ | ⟨s, hm, hc, hr⟩ | ⟨s, hm, hc, hr, hg⟩
  · have hE' : ¬ (!o.evalResAtMaxIter && decide ((s.iter : Int) ≥ o.maxIter)) = true →
        Evald o s.iter := by
      intro c2
      simp only [Bool.and_eq_true, Bool.not_eq_true', decide_eq_true_eq, not_and] at c2
      unfold Evald
      by_cases hv : o.evalResAtMaxIter = true
      · exact Or.inr hv
      · left
        have := c2 (by simpa using hv)
        omega
    unfold checkTermination Sqp.checkTermination at hc
    have hle := hm.iterLe
    split_ifs at hc with c1 c2 c3 c4 c5 c6 c7 <;> simp only [Option.some.injEq] at hc <;>
      subst hc <;> simp only [reduceCtorEq, false_implies, true_implies, true_and, and_true,
        List.mem_cons, List.not_mem_nil, or_true, or_false, true_or, false_or]
    · rw [Sqp.hasNan_iff] at c1
      by_cases hE : Evald o s.iter
      · rw [hm.resE rfl hE] at c1; exact Or.inl c1
      · right; right
        rcases Nat.eq_zero_or_pos s.iter with h0 | h0
        · rw [hm.res0 (fun _ => hE) h0] at c1
          unfold Evald at hE
          rw [not_or] at hE
          rw [h0] at hE
          exact ⟨by simpa using (not_not.1 hE.1).symm, by simpa using hE.2, c1⟩
        · exact absurd c1 (hm.resN (fun _ => hE) h0)
    · left
      simp at c2
      omega
    · simp only [Bool.and_eq_true, decide_eq_true_eq] at c3
      rw [hm.resE rfl (hE' c2)] at c3
      exact ⟨⟨c3.1.1.1, c3.1.1.2, c3.1.2, c3.2⟩, hm.hx⟩
    · left
      simp only [Bool.and_eq_true, decide_eq_true_eq] at c4
      refine ⟨c4.1.2, ?_⟩
      rw [← hm.hstep c4.1.2 c4.1.1]
      exact c4.2
    · left
      intro hn
      rw [← hm.hcost rfl (hE' c2) hn]
      exact c5
    · left; omega
    · left
      rw [(hm.prevM c7.1 rfl).2, hm.hest c7.1] at c7
      exact c7
  · obtain ⟨a1, a2, a3, a4, a5⟩ := searchDir_step (e := e) hm.core hm.statM hm.hdirs hm.cnt
    rcases a5 with ⟨h1, -⟩ | ⟨h1, h2, h3, h4⟩ | ⟨h1, h2, h3⟩
    · exact absurd h1 hr
    · rw [h2, a2.1]
      simp only [reduceCtorEq, false_implies, true_implies, true_and, and_true,
        List.mem_cons, List.not_mem_nil, or_true, or_false, true_or, false_or]
      left
      unfold QpFailed
      rw [← hm.hx]
      exact h4
    · obtain ⟨k1, k2, k3⟩ := hm.modes h3
      rw [h2, k2, a2.1]
      simp only [reduceCtorEq, false_implies, true_implies, true_and, and_true,
        List.mem_cons, List.not_mem_nil, or_true, or_false, true_or, false_or]
      left
      rw [← k3]
      exact ⟨k1, h3⟩
  · have hgf : GlobFailed
        { globPhase e (normPhase o e (searchDir o e s).2) with status := e.glob s.iter s.x } := by
      obtain ⟨a1, a2, -⟩ := searchDir_step (e := e) hm.core hm.statM hm.hdirs hm.cnt
      refine ⟨hg, ?_⟩
      have e1 : (normPhase o e (searchDir o e s).2).iter = s.iter := a2.1
      have e2 : (normPhase o e (searchDir o e s).2).x = s.x := a2.2.1
      simp only [globPhase, e1, e2]
      simp
    exact ⟨fun hs => absurd hs hg, fun _ => Or.inr hgf, fun _ => Or.inr (Or.inl hgf),
      fun _ => Or.inr hgf, fun _ => Or.inr hgf, fun _ => Or.inr hgf, fun _ => Or.inr hgf,
      fun _ => Or.inr hgf, Or.inr hgf⟩

/-- C59: all accesses to the statistics table (13 columns), the stored iterates and the step norm logs
are in bounds if the tables were created with at least this `max_iter`; in every iteration before the
last one, no residual was NaN, some tolerance was exceeded, a search direction was found and the
globalization succeeded. -/
theorem C59_tables_and_iterations :
    (∀ m0 : Nat, o.maxIter ≤ m0 → p.statM = m0 + 1 →
      ∀ ev ∈ s.log, InBounds (m0 + 1) (m0 + 1) m0 ev) ∧
    (s.iter : Int) ≤ o.maxIter ∧
    ∀ j < s.iter, e.glob j (traj e x0 j) = .success ∧ ¬ (e.res (traj e x0 j)).HasNan ∧
      ¬ (e.res (traj e x0 j)).Below o.toOpts ∧
      (e.qp .nominal j (traj e x0 j) = .success ∨ ¬ QpFailed e x0 j) := by
  have hend := solve_ending hM hp h
  refine ⟨?_, ?_⟩
  · intro m0 hm0 hS ev hev
    obtain ⟨a, b, hab⟩ := List.append_of_mem hev
    have := ((ending_core hend).ok a ev b hab).1 (by rw [hS]; push_cast; omega)
    rw [hS] at this
    cases ev <;> simp only [InBounds] at this ⊢ <;> first | exact this | omega
  · have key : ∀ {s : St K X}, Inv o e p x0 true s → (s.iter : Int) ≤ o.maxIter ∧
        ∀ j < s.iter, e.glob j (traj e x0 j) = .success ∧ ¬ (e.res (traj e x0 j)).HasNan ∧
          ¬ (e.res (traj e x0 j)).Below o.toOpts ∧
          (e.qp .nominal j (traj e x0 j) = .success ∨ ¬ QpFailed e x0 j) := by
      intro s hi
      refine ⟨hi.iterLe, fun j hj => ?_⟩
      obtain ⟨h1, h2, h3, h4⟩ := hi.steps j hj
      refine ⟨h1, h2, h3, h4.imp id ?_⟩
      rintro ⟨u, v⟩ (w | w)
      · exact w u
      · exact w v
    rcases hend with ⟨s, st, hm, hc⟩ | ⟨s, hm, hc, hr⟩ | ⟨s, hm, hc, hr, hg⟩
    · have := key hm; exact this
    · rw [(searchDir_step (e := e) hm.core hm.statM hm.hdirs hm.cnt).2.1.1]; exact key hm
    · have : (globPhase e (normPhase o e (searchDir o e s).2)).iter = s.iter :=
        (searchDir_step (e := e) hm.core hm.statM hm.hdirs hm.cnt).2.1.1
      simp only
      rw [this]; exact key hm

end

/-- C59: the solver always stops. -/
theorem C59_terminates (o : Opts K) (e : Env K X) (p : Persist K) (x0 : X) :
    solve o e p x0 ≠ .running :=
  loop_running _ _ (by simp [start])

/-- C59: with a negative `max_iter` (accepted by the setter) the loop is not entered and READY is
returned. -/
theorem C59_negative_max_iter_ready (o : Opts K) (e : Env K X) (p : Persist K) (x0 : X)
    (h : o.maxIter < 0) : ∃ s, solve o e p x0 = .ret s ∧ s.status = .ready ∧ s.log = [] := by
  refine ⟨start o p x0, ?_, rfl, rfl⟩
  unfold solve loop
  rw [if_neg]
  simp only [start]
  omega

/-! ## concrete runs -/

def exOpts : Opts ℚ :=
  { maxIter := 10, evalResAtMaxIter := true
    tolStat := .fin (1/10), tolEq := .fin (1/10), tolIneq := .fin (1/10), tolComp := .fin (1/10)
    tolMinStep := (0 : Dbl), tolUnbounded := .fin (-10000000000)
    timeoutMax := 0, heur := .zero, warmStartFirst := false, qpWarmStart := 1
    storeIterates := false, logPrimalStep := false, logDualStep := false, withAnderson := false
    printing := false, needsObj := false, extQpRes := false
    mode := .nominal, watchdogMax := 2, allow := true, useCon := false, logPi := true, logLam := true }

/-- residuals halve from 1 on; the nominal QP of iteration 0 is infeasible; the slacks are zero in
iterations 0 and 2, not in iteration 1 -/
def exEnv : Env ℚ ℚ :=
  { res := fun x => ⟨.fin x, .fin x, .fin x, .fin x⟩
    cost := fun x => .fin x
    toc := fun k => (k : ℚ) / 100
    qp := fun k n _ => if k = .nominal ∧ n = 0 then .infeasible else .success
    l1 := fun n _ => if n = 1 then .fin 1 else .fin 0
    nns := 2
    stepNorm := fun _ x => .fin (x / 2)
    glob := fun _ _ => .success
    globX := fun _ x => x / 2
    globCost := fun _ _ c => c }

/-- status, iterations, iterate and the events that concern modes and QPs -/
def summary : Out ℚ ℚ → Option (Status × Nat × ℚ × List (Mode ⊕ Kind × Status × Int))
  | .ret s => some (s.status, s.iter, s.x, s.log.filterMap fun ev => match ev with
    | .switch m => some (.inl m)
    | .qp k st w => some (.inr (k, st, w))
    | _ => none)
  | _ => none

instance : DecidableEq (Kind × Status × Int) := inferInstance
instance : DecidableEq (List (Mode ⊕ Kind × Status × Int)) := inferInstance
instance : DecidableEq (Nat × ℚ × List (Mode ⊕ Kind × Status × Int)) := inferInstance
instance : DecidableEq (Option (Status × Nat × ℚ × List (Mode ⊕ Kind × Status × Int))) := inferInstance

/-- C22: the documentation (ocp_nlp_sqp_with_feasible_qp.h:64, 118) speaks of consecutive iterations; here
the mode changes back after iterations 0 and 2 with zero slacks although iteration 1 had nonzero slacks:
the counter is not reset. -/
theorem C22_not_consecutive : summary (solve exOpts exEnv (create 10 1) 1) =
    some (.success, 4, 1/16,
      [.inr (.nominal, .infeasible, 0), .inl .bo, .inr (.feas, .success, 0), .inr (.bo, .success, 0),
       .inr (.feas, .success, 1), .inr (.bo, .success, 1),
       .inr (.feas, .success, 1), .inr (.bo, .success, 1), .inl .nominal,
       .inr (.nominal, .success, 1)]) := by decide +kernel

/-- C22: a nominal QP that only reached the iteration limit of the QP solver counts as failed (the plain
SQP solver goes on with it). -/
theorem C22_maxiter_counts_as_failure : summary (solve { exOpts with maxIter := 1 }
      { exEnv with qp := fun k _ _ => if k = .nominal then .maxIter else .success } (create 10 1) 1) =
    some (.maxIter, 1, 1/2,
      [.inr (.nominal, .maxIter, 0), .inl .bo, .inr (.feas, .success, 0), .inr (.bo, .success, 0)]) := by
  decide +kernel

/-- C22: switching back is not done when it is not allowed. -/
example : summary (solve { exOpts with allow := false } exEnv (create 10 1) 1) =
    some (.success, 4, 1/16,
      [.inr (.nominal, .infeasible, 0), .inl .bo, .inr (.feas, .success, 0), .inr (.bo, .success, 0),
       .inr (.feas, .success, 1), .inr (.bo, .success, 1),
       .inr (.feas, .success, 1), .inr (.bo, .success, 1),
       .inr (.feas, .success, 1), .inr (.bo, .success, 1)]) := by decide +kernel

/-- C59: with the (accepted, documented) mode FEASIBILITY_QP the solver stops in iteration 0 and returns
READY. -/
theorem C59_feasibility_mode_ready :
    summary (solve { exOpts with mode := .feas } exEnv (create 10 1) 1) = some (.ready, 0, 1, []) := by
  decide +kernel

/-- writes to the statistics table -/
def statRows : Out ℚ ℚ → List (Nat × Nat)
  | .ret s => s.log.filterMap fun ev => match ev with | .stat r c => some (r, c) | _ => none
  | _ => []

/-- C59 does not hold if `max_iter` is raised after creation: row 2 of a table with 2 rows is written
(the step size column and the multiplier norms have no guard). -/
theorem C59_raised_max_iter_out_of_bounds :
    (2, 10) ∈ statRows (solve { exOpts with maxIter := 5 } exEnv (create 1 1) 1) ∧
    (3, 11) ∈ statRows (solve { exOpts with maxIter := 5 } exEnv (create 1 1) 1) := by decide +kernel

/-- the regularisation calls of a run, with the QPs in between -/
def regTrace : Out ℚ ℚ → List (Target ⊕ Kind)
  | .ret s => s.log.filterMap fun ev => match ev with
    | .reg t => some (.inl t)
    | .qp k _ _ => some (.inr k)
    | _ => none
  | _ => []

/-- C60 is false with `use_constraint_hessian_in_feas_qp`: the nominal Hessian is regularised twice
before the QP with relaxed bounds, the relaxed one not at all. -/
theorem C60_constraint_hessian_twice :
    regTrace (solve { exOpts with useCon := true, maxIter := 1 } exEnv (create 10 1) 1) =
      [.inl .nominal, .inr .nominal, .inl .nominal, .inr .feas, .inr .bo] := by decide +kernel

/-- with the identity Hessian -/
example : regTrace (solve { exOpts with maxIter := 2 } exEnv (create 10 1) 1) =
    [.inl .nominal, .inr .nominal, .inr .feas, .inr .bo, .inr .feas, .inl .nominal, .inr .bo] := by
  decide +kernel

/-- the hypotheses of the theorems above hold for this run -/
example : ∃ s, solve exOpts exEnv (create 10 1) 1 = .ret s ∧ s.status = .success ∧
    0 ≤ exOpts.maxIter ∧ (create (K := ℚ) 10 1).regPtr = .nominal := by
  cases hr : solve exOpts exEnv (create 10 1) 1 with
  | ret s =>
    have := C22_not_consecutive
    rw [hr] at this
    simp only [summary, Option.some.injEq, Prod.mk.injEq] at this
    exact ⟨s, rfl, this.1, by decide, rfl⟩
  | abort => have := C22_not_consecutive; rw [hr] at this; simp [summary] at this
  | running => have := C22_not_consecutive; rw [hr] at this; simp [summary] at this

end Acados.WfqpLoop
