import Verif.Lemmas.Rti
/-!
# C19: real-time iteration phases
-/
namespace Acados.Rti
variable {P B Z M V C X O : Type*}

/-! ## preparation followed by feedback against the combined call -/

/-- With a regularisation that acts on the matrices only, a preparation call followed by an update of the
bounds and a feedback call leaves exactly the same solver memory (iterate, QP solution, status,
statistics, …) as updating the bounds and making one combined call.  Missing from the full property:
the first call with a warm start of the QP taken from the iterate (see `C19_split_first_call_differs`),
and the regularisation module `convexify`. -/
theorem C19_split_equals_combined_partial (E : Env P B Z M V C X O) (r : M → M) (hE : LhsOnly E r)
    (o : Opts) (hl : o.level = .standard) (s : St P B Z M V C X O) (b : B)
    (hinit : s.initNext = false) (hw : (s.first && (o.warmFirst && o.fromNlp)) = false) :
    run E o [.run .prep, .setBounds b, .run .feed] s = run E o [.setBounds b, .run .both] s := by
  obtain ⟨p, b0, z, tmp, m, v, c, x, q, ini, ws, it, st, fi, sn, sm, wr, qs, qt, gl⟩ := s
  obtain ⟨ph, lv, ai, lr, lo, er, wf, fn, qw⟩ := o
  simp only at hl hinit hw
  subst hl hinit
  simp only [run, step, call, if_true, Option.bind_some, ne_eq, not_true_eq_false, if_false,
    Option.some.injEq]
  generalize hoF : (⟨.feed, .standard, ai, lr, lo, er, wf, fn, qw⟩ : Opts) = oF
  generalize hoB : (⟨.both, .standard, ai, lr, lo, er, wf, fn, qw⟩ : Opts) = oB
  have key : feedbackQp E oF
        { prepare E ⟨.prep, .standard, ai, lr, lo, er, wf, fn, qw⟩
          ⟨p, b0, z, tmp, m, v, c, x, q, false, ws, it, st, fi, sn, sm, wr, qs, qt, gl⟩ with b := b } =
      feedbackQp E oB (prepare E oB
          ⟨p, b, z, tmp, m, v, c, x, q, false, ws, it, st, fi, sn, sm, wr, qs, qt, gl⟩) := by
    subst hoF hoB
    simp only [prepare, lhsStep, linStep, startPrep, if_true, hE.lhs, reduceCtorEq, if_false]
    generalize E.lin p z (E.init p z m) = L
    simp only [feedbackQp, vecStep, hE.vec, storeRes_eq, regStep, hE.reg, hE.rhs]
    rw [warmStart_eq, warmStart_eq]
    · rw [show decide (Phase.feed ≠ Phase.both) = true from rfl,
        show decide (Phase.both ≠ Phase.both) = false from rfl, qpSolve_split E _ c]
      · cases lr <;> rfl
      · cases lr <;> rfl
      · cases lr <;> rfl
    · cases lr <;> exact hw
    · cases lr <;> exact hw
  unfold feedback
  rw [key]
  subst hoF hoB
  rfl

/-- a small exact instance: one variable, `lin` records the linearisation point, the QP step is the
distance from the linearisation point to the bound -/
def demo : Env Int Int Int Int Int Int Int Int where
  init _ _ m := m
  lin p z _ := p + z
  vec b _ m := b - m
  reg m v := (m, v)
  regLhs m v := (m, v)
  regRhs m v := (m, v)
  cond m := m
  condOut _ _ _ o _ := o
  inner ws _ _ v x := (.success, 1, if ws = 0 then v else v + x)
  expand _ _ x := x
  corr m v o := (m, v, o)
  initQp z _ _ _ := z
  glob _ _ _ z t m v o := (true, z + o, t, m, v, o)
  resPrep p z _ := p + z
  resPrepC p z _ := p + z
  zero _ b z m _ _ := (m, b - z)
  levC _ b z m _ := (m, b - z)
  adv _ _ m b := (b, m)
  sane _ := true

/-- default options of the solver (ocp_nlp_sqp_rti.c:115-122) with a QP warm start -/
def dflt : Opts :=
  { phase := .both, level := .standard, asIter := 0, logRes := false, logOnly := false, extRes := false
    warmFirst := false, fromNlp := true, qpWarm := 1 }

def fresh (o : Opts) : St Int Int Int Int Int Int Int Int := create o 0 7 3 0 0 0 0 0 0

theorem demo_lhsOnly : LhsOnly demo id := ⟨fun _ _ => rfl, fun _ _ => rfl, fun _ _ => rfl, fun _ _ _ => rfl⟩

/-- the hypotheses of `C19_split_equals_combined_partial` hold for a fresh solver with default options,
and the resulting step is not trivial -/
example : (fresh dflt).initNext = false ∧
    ((fresh dflt).first && (dflt.warmFirst && dflt.fromNlp)) = false ∧
    (run demo dflt [.run .prep, .setBounds 9, .run .feed] (fresh dflt)).map (·.z) = some 9 := by
  decide +kernel

/-- With `warm_start_first_qp` (and the default `warm_start_first_qp_from_nlp`), the first preparation and
feedback give a different iterate than the combined call: the precondensed solve ignores the request to
initialise the condensed QP from the iterate. -/
theorem C19_split_first_call_differs :
    ∃ (E : Env Int Int Int Int Int Int Int Int) (r : Int → Int) (o : Opts) (b : Int),
      LhsOnly E r ∧ o.level = .standard ∧ o.warmFirst = true ∧ o.fromNlp = true ∧
      (run E o [.run .prep, .setBounds b, .run .feed] (fresh o)).map (·.z) ≠
        (run E o [.setBounds b, .run .both] (fresh o)).map (·.z) :=
  ⟨demo, id, { dflt with warmFirst := true }, 9, demo_lhsOnly, rfl, rfl, rfl, by decide +kernel⟩

/-- the request stays pending: a later combined call on the same solver (not the first call any more) is
initialised from the QP solution of the call before -/
theorem C19_initialisation_request_left_pending :
    ∃ (o : Opts), o.level = .standard ∧
      (run demo o [.run .prep, .run .feed] (fresh o)).map (fun s => (s.initNext, s.first)) = some (true, false) :=
  ⟨{ dflt with warmFirst := true }, rfl, by decide +kernel⟩

/-! ## which QP a feedback call solves -/

theorem run_sets (E : Env P B Z M V C X O) (o : Opts) (h : List (Op P B)) (hs : ∀ a ∈ h, IsSet a) :
    ∀ s : St P B Z M V C X O, ∃ p, run E o h s = some { s with p := p, b := boundsAfter s.b h } := by
  induction h with
  | nil => intro s; exact ⟨s.p, rfl⟩
  | cons a l ih =>
    intro s
    have hl := ih (fun x hx => hs x (List.mem_cons_of_mem _ hx))
    cases a with
    | setBounds b => obtain ⟨p, hp⟩ := hl { s with b := b }; exact ⟨p, hp⟩
    | setParam q => obtain ⟨p, hp⟩ := hl { s with p := q }; exact ⟨p, hp⟩
    | run ph => exact absurd (hs (.run ph) (by simp)) (by simp [IsSet])

/-- A feedback call after a preparation and any number of changes of bounds and parameters solves exactly
one QP: its matrices are the regularised linearisation at the iterate and the parameters of the
preparation, its vectors use the bounds (initial state) in force at the feedback call. -/
theorem C19_feedback_qp (E : Env P B Z M V C X O) (r : M → M) (hE : LhsOnly E r) (o : Opts)
    (hl : o.level = .standard) (s s' : St P B Z M V C X O) (h : List (Op P B)) (hs : ∀ a ∈ h, IsSet a)
    (hr : run E o (.run .prep :: h ++ [.run .feed]) s = some s') :
    s'.qps = s.qps ++
      [(E.cond (r (E.lin s.p s.z (E.init s.p s.z s.m))), r (E.lin s.p s.z (E.init s.p s.z s.m)),
        E.vec (boundsAfter s.b h) s.z (E.lin s.p s.z (E.init s.p s.z s.m)))] := by
  simp only [List.cons_append, run, step, call, hl, if_true, Option.bind_some] at hr
  rw [run_append] at hr
  obtain ⟨p, hp⟩ := run_sets E o h hs (prepare E { o with phase := .prep, level := .standard } s)
  rw [hp] at hr
  simp only [Option.bind_some, run, step, call, Option.some.injEq] at hr
  subst hr
  rw [(feedback_misc E _ _).2.2.2.1, (feedbackQp_pre E _ _ rfl).2]
  simp [prepare, lhsStep, linStep, startPrep, hE.lhs, hE.rhs, hE.vec]

example : (run demo dflt ([.run .prep] ++ [.setParam 5, .setBounds 9] ++ [.run .feed]) (fresh dflt)).map (·.qps)
    = some [(3, 3, 6)] := by decide +kernel

/-- Whatever happens between a preparation and a feedback call except another preparation (including
further feedback calls, with any regularisation and globalisation), the condensed matrices used are those
of that preparation. -/
theorem C19_condensed_matrices (E : Env P B Z M V C X O) (o : Opts) (hl : o.level = .standard)
    (s s' : St P B Z M V C X O) (h : List (Op P B)) (hn : ∀ a ∈ h, NoPrep a)
    (hr : run E o (.run .prep :: h ++ [.run .feed]) s = some s') :
    ∃ m v, s'.qps.getLast? =
      some (E.cond (E.regLhs (E.lin s.p s.z (E.init s.p s.z s.m)) s.v).1, m, v) := by
  simp only [List.cons_append, run, step, call, hl, if_true, Option.bind_some] at hr
  have key : ∀ (h : List (Op P B)), (∀ a ∈ h, NoPrep a) → ∀ t t' : St P B Z M V C X O,
      run E o (h ++ [.run .feed]) t = some t' → ∃ m v, t'.qps.getLast? = some (t.c, m, v) := by
    intro h
    induction h with
    | nil =>
      intro _ t t' hr
      simp only [List.nil_append, run, step, call, Option.bind_some, Option.some.injEq] at hr
      subst hr
      rw [(feedback_misc E _ _).2.2.2.1, (feedbackQp_pre E _ _ rfl).2]
      exact ⟨_, _, List.getLast?_concat⟩
    | cons a l ih =>
      intro hn t t' hr
      have hl' : ∀ a ∈ l, NoPrep a := fun x hx => hn x (List.mem_cons_of_mem _ hx)
      cases a with
      | setBounds b =>
        simp only [List.cons_append, run, step, Option.bind_some] at hr
        exact ih hl' { t with b := b } t' hr
      | setParam p =>
        simp only [List.cons_append, run, step, Option.bind_some] at hr
        exact ih hl' { t with p := p } t' hr
      | run ph =>
        cases ph with
        | prep => exact absurd (hn (.run .prep) (by simp)) (by simp [NoPrep])
        | both => exact absurd (hn (.run .both) (by simp)) (by simp [NoPrep])
        | feed =>
          simp only [List.cons_append, run, step, call, Option.bind_some] at hr
          obtain ⟨m, v, hq⟩ := ih hl' _ t' hr
          refine ⟨m, v, ?_⟩
          rw [hq, (feedback_misc E _ _).2.2.1, (feedbackQp_pre E _ _ rfl).1]
  obtain ⟨m, v, hq⟩ := key h hn _ s' hr
  refine ⟨m, v, ?_⟩
  rw [hq]
  simp [prepare, lhsStep, linStep, startPrep]

/-- Without a new preparation a second feedback call does not see the new iterate: it repeats the QP, so
the same step is taken twice (instance with one variable and the full step; the bound 9 is overshot). -/
theorem C19_repeated_feedback_overshoots :
    (run demo { dflt with qpWarm := 0 } [.run .prep, .setBounds 9, .run .feed, .run .feed]
      (fresh { dflt with qpWarm := 0 })).map
      (fun s => (s.qps, s.z)) = some ([(3, 3, 6), (3, 3, 6)], 15) := by
  decide +kernel

/-! ## returned status -/

/-- A feedback or combined call solves one QP; the returned status is `QP_FAILURE` exactly when the QP
solver reported something else than success or the iteration limit, otherwise it is `SUCCESS`.  Missing
from the full property: a failed globalisation is not reported (`C19_globalization_failure_hidden`). -/
theorem C19_feedback_status_partial (E : Env P B Z M V C X O) (o : Opts) (ph : Phase) (hp : ph ≠ .prep)
    (s s' : St P B Z M V C X O) (hr : run E o [.run ph] s = some s') :
    ∃ st, s'.qpSt = s.qpSt ++ [st] ∧
      s'.status = if st = .success ∨ st = .maxIter then .success else .qpFailure := by
  have key : ∀ (o' : Opts) (t : St P B Z M V C X O), ∃ st, (feedback E o' t).qpSt = t.qpSt ++ [st] ∧
      (feedback E o' t).status = if st = .success ∨ st = .maxIter then .success else .qpFailure := by
    intro o' t
    refine ⟨(feedbackQp E o' t).1, (feedback_misc E o' t).2.2.2.2.1, ?_⟩
    rw [feedback_status]
    simp [qpOk]
  cases ph with
  | prep => exact absurd rfl hp
  | feed =>
    simp only [run, step, call, Option.bind_some, Option.some.injEq] at hr
    subst hr
    exact key _ s
  | both =>
    simp only [run, step, call] at hr
    split at hr
    · simp at hr
    · simp only [Option.bind_some, Option.some.injEq] at hr
      subst hr
      obtain ⟨st, h1, h2⟩ := key { o with phase := .both } (prepare E { o with phase := .both } s)
      refine ⟨st, ?_, h2⟩
      rw [h1, (prepare_frame E _ s).2.2.2.2.2.2.2.2.2.1]

/-- a globalisation that always fails is reported as success -/
theorem C19_globalization_failure_hidden (E : Env P B Z M V C X O) (o : Opts) (hl : o.level = .standard)
    (hq : ∀ ws c m v x, (E.inner ws c m v x).1 = .success)
    (hg : ∀ i p b z t m v q, (E.glob i p b z t m v q).1 = false) (s : St P B Z M V C X O) :
    ∃ s', run E o [.run .both] s = some s' ∧ s'.status = .success ∧ s'.globOk = s.globOk ++ [false] := by
  simp only [run, step, call, hl, ne_eq, not_true_eq_false, if_false, Option.bind_some]
  refine ⟨_, rfl, ?_, ?_⟩
  · rw [feedback_status]
    have : (feedbackQp E { o with phase := .both, level := .standard }
        (prepare E { o with phase := .both, level := .standard } s)).1 = .success := by
      simp only [feedbackQp, qpSolve]; exact hq ..
    rw [this]; rfl
  · have hs : (feedbackQp E { o with phase := .both, level := .standard }
        (prepare E { o with phase := .both, level := .standard } s)).1 = .success := by
      simp only [feedbackQp, qpSolve]; exact hq ..
    have hg1 : (feedbackQp E { o with phase := .both, level := .standard }
        (prepare E { o with phase := .both, level := .standard } s)).2.globOk = s.globOk := by
      rw [(feedbackQp_frame E _ _).2.2.2.2.2.1]
      simp only [prepare, linStep, startPrep]; split <;> rfl
    simp only [feedback, hs, storeRes_eq]
    split
    · rename_i h; exact absurd h (by simp [qpOk])
    · have h2 := (feedbackStat_frame { o with phase := .both, level := .standard }
        (feedbackQp E { o with phase := .both, level := .standard }
        (prepare E { o with phase := .both, level := .standard } s)).2).2.2.2.2.1
      split <;> simp [globStep, hg, h2, hg1]

example : ∃ E : Env Int Int Int Int Int Int Int Int,
    (∀ ws c m v x, (E.inner ws c m v x).1 = .success) ∧
    (∀ i p b z t m v q, (E.glob i p b z t m v q).1 = false) :=
  ⟨{ demo with glob := fun _ _ _ z t m v o => (false, z, t, m, v, o) }, fun _ _ _ _ _ => rfl,
    fun _ _ _ _ _ _ _ _ => rfl⟩

/-- A standard preparation call returns the status of an earlier call, whatever it was: `READY` on a new
solver, `QP_FAILURE` after a failed feedback. -/
theorem C19_preparation_returns_old_status (E : Env P B Z M V C X O) (o : Opts) (hl : o.level = .standard)
    (s s' : St P B Z M V C X O) (hr : run E o [.run .prep] s = some s') : s'.status = s.status := by
  simp only [run, step, call, hl, if_true, Option.bind_some, Option.some.injEq] at hr
  subst hr
  exact (prepare_frame E _ s).2.2.2.2.1

example : (run demo dflt [.run .prep] (fresh dflt)).map (·.status) = some .ready := by decide +kernel

/-- Status of an advanced-step preparation, with the list `l` of statuses of the QPs solved inside: levels
B, C and D report `QP_FAILURE` when one of them failed and otherwise return the old status; level A
returns the old status in any case. -/
theorem C19_advanced_preparation_status (E : Env P B Z M V C X O) (o : Opts) (hl : o.level ≠ .standard)
    (s s' : St P B Z M V C X O) (hr : run E o [.run .prep] s = some s') :
    ∃ l, s'.qpSt = s.qpSt ++ l ∧
      s'.status = (if o.level = .A ∨ (∀ st ∈ l, st = .success ∨ st = .maxIter) then s.status
        else .qpFailure) := by
  simp only [run, step, call, hl, if_false] at hr
  cases hp : prepareAdvanced E { o with phase := .prep } s with
  | none => rw [hp] at hr; simp at hr
  | some t =>
    rw [hp] at hr
    simp only [Option.bind_some, Option.some.injEq] at hr
    subst hr
    obtain ⟨l, h1, h2, -⟩ := prepareAdvanced_status E _ s t hp
    refine ⟨l, h1, ?_⟩
    rw [h2]
    simp [qpOk]

/-- a level A preparation whose QP fails returns `SUCCESS` of the call before -/
theorem C19_levelA_hides_qp_failure :
    ∃ (E : Env Int Int Int Int Int Int Int Int) (o : Opts), o.level = .A ∧
      (run E o [.run .prep, .run .feed, .setBounds 1000, .run .prep] (fresh o)).map
        (fun s => (s.qpSt, s.status)) = some ([.success, .qpFailure], .success) :=
  ⟨{ demo with inner := fun _ _ _ v x => (if v < 100 then .success else .qpFailure, 1, x) },
    { dflt with level := .A, asIter := 1 }, rfl, by decide +kernel⟩

/-- When a QP fails inside a level B or C preparation, the new linearisation is skipped: a feedback call
that follows works with the condensed matrices of an earlier preparation. -/
theorem C19_failed_preparation_keeps_matrices (E : Env P B Z M V C X O) (o : Opts)
    (hl : o.level = .B ∨ o.level = .C) (s s' : St P B Z M V C X O)
    (hr : run E o [.run .prep, .run .feed] s = some s')
    (hf : ∃ t, run E o [.run .prep] s = some t ∧ ∃ st ∈ t.qpSt.drop s.qpSt.length,
      ¬ (st = .success ∨ st = .maxIter)) :
    ∃ m v, s'.qps.getLast? = some (s.c, m, v) := by
  obtain ⟨t, ht, st, hst, hbad⟩ := hf
  have hst1 : o.level ≠ .standard := by rcases hl with h | h <;> rw [h] <;> decide
  have h1 : run E o [.run .prep, .run .feed] s = (run E o [.run .prep] s).bind (run E o [.run .feed]) :=
    run_append E o [.run .prep] [.run .feed] s
  rw [h1, ht] at hr
  simp only [run, step, call, hst1, if_false] at ht
  cases hp : prepareAdvanced E { o with phase := .prep } s with
  | none => rw [hp] at ht; simp at ht
  | some t' =>
    rw [hp] at ht
    simp only [Option.bind_some, Option.some.injEq] at ht
    subst ht
    obtain ⟨l, e1, -, e3⟩ := prepareAdvanced_status E _ s t' hp
    have hc : t'.c = s.c := by
      apply e3
      · rcases hl with h | h <;> simp [h]
      · rcases hl with h | h <;> simp [h]
      · rw [e1] at hst
        simp at hst
        rw [List.all_eq_false]
        exact ⟨st, hst, by simpa [qpOk] using hbad⟩
    simp only [Option.bind_some, run, step, call, Option.some.injEq] at hr
    subst hr
    rw [(feedback_misc E _ _).2.2.2.1, (feedbackQp_pre E _ _ rfl).2, hc]
    exact ⟨_, _, List.getLast?_concat⟩

/-- When no QP and no globalisation failed inside an advanced-step preparation (any level), a feedback call
that follows, after any changes of bounds and parameters, solves exactly one QP: matrices from the
regularised linearisation at the final iterate of the preparation, condensed anew, and vectors for the bounds
in force at the feedback call. -/
theorem C19_advanced_feedback_qp (E : Env P B Z M V C X O) (r : M → M) (hE : LhsOnly E r) (o : Opts)
    (hl : o.level ≠ .standard) (s t s' : St P B Z M V C X O) (hp : run E o [.run .prep] s = some t)
    (hst : t.status ≠ .qpFailure) (hok : ∀ l, t.globOk = s.globOk ++ l → false ∉ l)
    (h : List (Op P B)) (hs : ∀ a ∈ h, IsSet a) (hr : run E o (h ++ [.run .feed]) t = some s') :
    ∃ m, s'.qps = t.qps ++ [(E.cond (r (E.lin s.p t.z m)), r (E.lin s.p t.z m),
      E.vec (boundsAfter t.b h) t.z (r (E.lin s.p t.z m)))] := by
  simp only [run, step, call, hl, if_false] at hp
  cases ha : prepareAdvanced E { o with phase := .prep } s with
  | none => rw [ha] at hp; simp at hp
  | some w =>
    rw [ha] at hp
    simp only [Option.bind_some, Option.some.injEq] at hp
    subst hp
    obtain ⟨-, m, v, hm, hc⟩ := prepareAdvanced_lin E _ s w ha hst hok
    rw [hE.lhs] at hm
    rw [run_append] at hr
    obtain ⟨p, hp⟩ := run_sets E o h hs w
    rw [hp] at hr
    simp only [Option.bind_some, run, step, call, Option.some.injEq] at hr
    subst hr
    refine ⟨m, ?_⟩
    rw [(feedback_misc E _ _).2.2.2.1, (feedbackQp_pre E _ _ rfl).2]
    simp only [hE.rhs]
    rw [hc, hm]

example : (run demo { dflt with level := .B, asIter := 2 } [.run .prep, .run .feed, .setBounds 9, .run .prep]
      (fresh { dflt with level := .B, asIter := 2 })).map (fun s => (s.status, s.globOk, s.z)) =
    some (.success, [true, true, true], 15) := by decide +kernel

/-! ## statistics array -/

/-- For the standard level, all statistics are written inside the allocated array if and only if no
preparation is followed by more than `as_rti_iter + 1` feedback calls. -/
theorem C19_statistics_in_bounds_iff (E : Env P B Z M V C X O) (o : Opts) (hl : o.level = .standard)
    (hi : 0 ≤ o.asIter) (p : P) (b : B) (z tmp : Z) (m : M) (v : V) (c : C) (x : X) (q : O)
    (h : List (Op P B)) (s : St P B Z M V C X O) (hr : run E o h (create o p b z tmp m v c x q) = some s) :
    InBounds s ↔ ∀ k ∈ feedCounts 0 h, (k : Int) ≤ o.asIter + 1 := by
  rw [run_stat E o hl hi h _ s 0 ⟨rfl, rfl⟩ rfl hr]
  simp [InBounds, create]

/-- default options: the second feedback after one preparation writes behind the array -/
theorem C19_second_feedback_writes_out_of_bounds :
    (run demo dflt [.run .prep, .run .feed, .run .feed] (fresh dflt)).map
      (fun s => (s.statN * s.statM, s.writes)) = some (4, [2, 3, 4, 5]) := by
  decide +kernel

/-- For every level, statistics stay inside the array when no preparation is followed by more than one
feedback, provided `as_rti_iter` is not negative, and at least one for level A. -/
theorem C19_statistics_in_bounds_partial (E : Env P B Z M V C X O) (o : Opts) (hi : 0 ≤ o.asIter)
    (hA : o.level = .A → 1 ≤ o.asIter) (p : P) (b : B) (z tmp : Z) (m : M) (v : V) (c : C) (x : X) (q : O)
    (h : List (Op P B)) (hc : ∀ k ∈ feedCounts 0 h, k ≤ 1) (s : St P B Z M V C X O)
    (hr : run E o h (create o p b z tmp m v c x q) = some s) : InBounds s :=
  (run_stat_adv E o hi hA h _ s 0 ⟨⟨rfl, rfl⟩, by simp [InBounds, create]⟩ (by simp [create])
    (fun _ => by simpa [create] using hi) hc hr).2

example : ∃ s, run demo { dflt with level := .B, asIter := 2, logRes := true, extRes := true }
      [.run .prep, .run .feed, .setBounds 4, .run .prep, .run .feed]
      (fresh { dflt with level := .B, asIter := 2, logRes := true, extRes := true }) = some s ∧
    s.statN * s.statM = 40 ∧ s.writes ≠ [] ∧ InBounds s := by
  refine ⟨_, rfl, by decide +kernel, by decide +kernel, ?_⟩
  unfold InBounds
  decide +kernel

/-- level A with `as_rti_iter = 0` (the default; the sanity check only prints a warning) -/
theorem C19_levelA_default_iterations_out_of_bounds :
    ∃ s, run demo { dflt with level := .A } [.run .prep, .run .feed, .run .prep, .run .feed]
      (fresh { dflt with level := .A }) = some s ∧ ¬ InBounds s := by
  refine ⟨_, rfl, ?_⟩
  unfold InBounds
  decide +kernel

/-- raising `as_rti_iter` after the solver was created -/
theorem C19_raised_iterations_out_of_bounds :
    ∃ s, run demo { dflt with level := .B, asIter := 3 } [.run .prep, .run .feed, .run .prep]
      (fresh { dflt with level := .B, asIter := 0 }) = some s ∧ ¬ InBounds s := by
  refine ⟨_, rfl, ?_⟩
  unfold InBounds
  decide +kernel

/-- a negative `as_rti_iter` is accepted by the option setter; the first feedback is then out of bounds -/
theorem C19_negative_iterations_out_of_bounds :
    ∃ s, run demo { dflt with asIter := -1 } [.run .both] (fresh { dflt with asIter := -1 }) = some s ∧
      ¬ InBounds s := by
  refine ⟨_, rfl, ?_⟩
  unfold InBounds
  decide +kernel

/-! ## stored iterate of level A, effect of logging -/

/-- Level A keeps the linearisation point of a preparation in a scratch iterate and starts the next
preparation from it.  The scratch iterate survives any feedback calls and changes of data if the
globalisation leaves it alone.  Missing: line searches use the same scratch iterate
(`C19_levelA_line_search_overwrites`). -/
theorem C19_levelA_linearisation_point_partial (E : Env P B Z M V C X O) (o : Opts) (hl : o.level = .A)
    (hg : ∀ i p b z t m v q, (E.glob i p b z t m v q).2.2.1 = t)
    (s t t' : St P B Z M V C X O) (hp : run E o [.run .prep] s = some t)
    (hok : ∀ k, t.globOk = s.globOk ++ k → ∀ b ∈ k, b = true)
    (h : List (Op P B)) (hn : ∀ a ∈ h, NoPrep a) (hr : run E o h t = some t') : t'.tmp = t.z := by
  have h1 : t.tmp = t.z := by
    simp only [run, step, call, hl, reduceCtorEq, if_false] at hp
    cases ha : prepareAdvanced E { o with phase := .prep, level := .A } s with
    | none => rw [ha] at hp; simp at hp
    | some w =>
      rw [ha] at hp
      simp only [Option.bind_some, Option.some.injEq] at hp
      subst hp
      exact levelA_prep_tmp E _ rfl s w ha hok
  have key : ∀ (h : List (Op P B)), (∀ a ∈ h, NoPrep a) → ∀ t t' : St P B Z M V C X O,
      run E o h t = some t' → t'.tmp = t.tmp := by
    intro h
    induction h with
    | nil => intro _ t t' hr; simp only [run, Option.some.injEq] at hr; rw [hr]
    | cons a l ih =>
      intro hn t t' hr
      have hl' : ∀ a ∈ l, NoPrep a := fun x hx => hn x (List.mem_cons_of_mem _ hx)
      cases a with
      | setBounds b => exact ih hl' { t with b := b } t' hr
      | setParam p => exact ih hl' { t with p := p } t' hr
      | run ph =>
        cases ph with
        | prep => exact absurd (hn (.run .prep) (by simp)) (by simp [NoPrep])
        | both => exact absurd (hn (.run .both) (by simp)) (by simp [NoPrep])
        | feed =>
          simp only [run, step, call, Option.bind_some] at hr
          rw [ih hl' _ t' hr]
          exact feedback_tmp E _ hg t
  rw [key h hn t t' hr, h1]

example : (run demo { dflt with level := .A, asIter := 1 } [.run .prep, .setBounds 9, .run .feed]
    (fresh { dflt with level := .A, asIter := 1 })).map (fun s => (s.z, s.tmp)) = some (9, 3) := by
  decide +kernel

/-- With a globalisation that evaluates trial points in the scratch iterate (as the line searches do), the
next level A preparation starts from a trial point instead of the linearisation point. -/
theorem C19_levelA_line_search_overwrites :
    ∃ (E : Env Int Int Int Int Int Int Int Int) (o : Opts), o.level = .A ∧
      (run E o [.run .prep] (fresh o)).map (fun s => s.tmp) = some 3 ∧
      (run E o [.run .prep, .setBounds 9, .run .feed] (fresh o)).map (fun s => s.tmp) = some 9 :=
  ⟨{ demo with glob := fun _ _ _ z _ m v o => (true, z + o, z + o, m, v, o) },
    { dflt with level := .A, asIter := 1 }, rfl, by decide +kernel, by decide +kernel⟩

/-- Residual logging evaluates constraint functions into the QP matrices: with more than one feedback per
preparation, switching it on changes the iterates. -/
theorem C19_logging_changes_iterates :
    ∃ (h : List (Op Int Int)),
      (run demo dflt h (fresh dflt)).map (·.z) ≠
        (run demo { dflt with logRes := true } h (fresh { dflt with logRes := true })).map (·.z) :=
  ⟨[.run .prep, .setBounds 9, .run .feed, .run .feed], by decide +kernel⟩

end Acados.Rti
