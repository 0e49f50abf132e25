import Verif.Model.QpCall
import Verif.Props.DenseQp
/-!
# Calls of the QP solvers (C61, C62)
-/
namespace Acados.QpCall
open Acados.DenseQp

section
variable {K : Type*} [Field K] [LinearOrder K]

/-- the complete problem a call hands over (`none`: only vectors are handed over) -/
def Call.data : Call K → Option (QArgs K)
  | .init _ a => some a
  | .initW _ a _ _ => some a
  | .hot .. => none

/-- the problem the solver works on after a list of calls: hot starts replace the vectors only -/
def held : List (Call K) → Option (QArgs K)
  | [] => none
  | c :: cs => (c :: cs).foldl (fun s c => match c with
      | .init _ a => some a
      | .initW _ a _ _ => some a
      | .hot _ g lb ub lbA ubA => s.map fun a => { a with g := g, lb := lb, ub := ub, lbA := lbA, ubA := ubA }) none

theorem held_snoc (l : List (Call K)) (c : Call K) : held (l ++ [c]) = match c with
      | .init _ a => some a
      | .initW _ a _ _ => some a
      | .hot _ g lb ub lbA ubA => (held l).map fun a => { a with g := g, lb := lb, ub := ub, lbA := lbA, ubA := ubA } := by
  cases l with
  | nil => cases c <;> rfl
  | cons d l =>
    simp only [List.cons_append, held, List.foldl_cons, List.foldl_append, List.foldl_nil]

/-- Without hot start every solve hands the complete current QP to qpOASES, exactly once, whatever happened
before. -/
theorem C61_cold_data (R : List (Call K) → Ans K) (o : Opts K) (big : K) (q old : DQp K) (m : Mem K)
    (ho : o.hotstart = false) {st : Status} {x lam : Nat → K} {m' : Mem K}
    (h : solve R o big q old m = some (st, x, lam, m')) :
    ∃ c a, m'.log = m.log ++ [c] ∧ c.data = some a ∧ qpoasesArgs big q old = some a ∧ held m'.log = some a := by
  unfold solve at h
  cases ha : qpoasesArgs big q old with
  | none => rw [ha] at h; exact (nomatch h)
  | some a =>
    rw [ha] at h
    simp only [Option.some.injEq, Prod.mk.injEq] at h
    obtain ⟨_, _, _, rfl⟩ := h
    refine ⟨_, a, rfl, ?_, rfl, ?_⟩
    · unfold choose; rw [ho]
      cases o.chol <;> cases o.warm <;> rfl
    · change held (m.log ++ [_]) = _
      rw [held_snoc]
      unfold choose; rw [ho]
      cases o.chol <;> cases o.warm <;> rfl

/-- Outside the hot-start branch for problems with bounds only, `SUCCESS` is returned exactly when qpOASES
reported success, and every other status only with the matching report; variables are those of the solver. -/
theorem C61_qpoases_status (R : List (Call K) → Ans K) (o : Opts K) (big : K) (q old : DQp K) (m : Mem K)
    (ho : o.hotstart = false ∨ 0 < q.ng ∨ 0 < q.ns) {st : Status} {x lam : Nat → K} {m' : Mem K}
    (h : solve R o big q old m = some (st, x, lam, m')) :
    (st = .success ↔ (R m'.log).ret = .successful) ∧ (st = .maxIter ↔ (R m'.log).ret = .maxNwsr) ∧
    (st = .infeasible ↔ (R m'.log).ret = .infeasible) ∧ (st = .unbounded ↔ (R m'.log).ret = .unbounded) ∧
    x = (R m'.log).x := by
  unfold solve at h
  cases ha : qpoasesArgs big q old with
  | none => rw [ha] at h; exact (nomatch h)
  | some a =>
    rw [ha] at h
    simp only [Option.some.injEq, Prod.mk.injEq] at h
    obtain ⟨h1, h2, _, rfl⟩ := h
    have hc : (choose o m (!(decide (q.ng > 0) || decide (q.ns > 0))) a).2 = true := by
      unfold choose
      rcases ho with ho | ho | ho
      · rw [ho]; cases o.chol <;> cases o.warm <;> rfl
      all_goals
        simp only [gt_iff_lt, ho, decide_true, Bool.or_true, Bool.true_or, Bool.not_true, Bool.not_false]
        split
        · split <;> rfl
        · split
          · rfl
          · split <;> rfl
    rw [hc] at h1
    subst h1 h2
    dsimp only
    generalize R (m.log ++ [(choose o m (!(decide (q.ng > 0) || decide (q.ns > 0))) a).1]) = r
    cases hr : r.ret <;> simp [statusOf]

/-- In the hot-start branch for problems without general constraints and slacks the report of qpOASES is
dropped: the status is always `SUCCESS`. -/
theorem C61_hot_box_always_success (R : List (Call K) → Ans K) (o : Opts K) (big : K) (q old : DQp K) (m : Mem K)
    (ho : o.hotstart = true) (hng : q.ng = 0) (hns : q.ns = 0) {st : Status} {x lam : Nat → K} {m' : Mem K}
    (h : solve R o big q old m = some (st, x, lam, m')) : st = .success := by
  unfold solve at h
  cases ha : qpoasesArgs big q old with
  | none => rw [ha] at h; exact (nomatch h)
  | some a =>
    rw [ha] at h
    simp only [Option.some.injEq, Prod.mk.injEq] at h
    obtain ⟨rfl, _⟩ := h
    unfold choose
    simp only [ho, hng, hns, if_true]
    cases m.first <;> rfl

/-- hot start: what the solver works on after any number of solves -/
theorem hot_held (R : List (Call K) → Ans K) (o : Opts K) (big : K) (old : DQp K) (ho : o.hotstart = true)
    (qs : List (DQp K)) : ∀ (m m' : Mem K) (a0 : QArgs K), m.first = false → held m.log = some a0 →
      run R o big old qs m = some m' → m'.first = false ∧ ∃ a, held m'.log = some a ∧ a.H = a0.H ∧ a.C = a0.C ∧
        ∀ q, qs.getLast? = some q → ∃ b, qpoasesArgs big q old = some b ∧ a.g = b.g ∧ a.lb = b.lb ∧ a.ub = b.ub ∧
          a.lbA = b.lbA ∧ a.ubA = b.ubA := by
  induction qs with
  | nil =>
    intro m m' a0 h1 h2 h3
    simp only [run, Option.some.injEq] at h3
    subst h3
    exact ⟨h1, a0, h2, rfl, rfl, fun q hq => (nomatch hq)⟩
  | cons q qs ih =>
    intro m m' a0 h1 h2 h3
    unfold run at h3
    cases hs : solve R o big q old m with
    | none => rw [hs] at h3; exact (nomatch h3)
    | some r =>
      obtain ⟨st, x, lam, m1⟩ := r
      rw [hs] at h3
      simp only at h3
      unfold solve at hs
      cases ha : qpoasesArgs big q old with
      | none => rw [ha] at hs; exact (nomatch hs)
      | some b =>
        rw [ha] at hs
        simp only [Option.some.injEq, Prod.mk.injEq] at hs
        obtain ⟨_, _, _, rfl⟩ := hs
        have hl : held (m.log ++ [(choose o m (!(decide (q.ng > 0) || decide (q.ns > 0))) b).1])
            = some { a0 with g := b.g, lb := b.lb, ub := b.ub, lbA := b.lbA, ubA := b.ubA } := by
          rw [held_snoc]
          unfold choose
          simp only [ho, h1, if_true, Bool.false_eq_true, if_false, h2, Option.map_some]
        obtain ⟨f, a, e1, e2, e3, e4⟩ := ih _ m' _ (by simp only [ho, if_true]) hl h3
        refine ⟨f, a, e1, e2, e3, ?_⟩
        intro q' hq'
        cases qs with
        | nil =>
          simp only [List.getLast?_singleton, Option.some.injEq] at hq'
          subst hq'
          simp only [run, Option.some.injEq] at h3
          rw [← h3] at e1
          rw [hl] at e1
          simp only [Option.some.injEq] at e1
          subst e1
          exact ⟨b, ha, rfl, rfl, rfl, rfl, rfl⟩
        | cons p ps =>
          rw [List.getLast?_cons_cons] at hq'
          exact e4 q' hq'

/-- With hot start, from a fresh memory and after any number of solves, the solver works on the vectors of the
last QP and the matrices of the *first* one.  So it works on the last QP exactly when its matrices agree with
those of the first. -/
theorem C61_hot_data (R : List (Call K) → Ans K) (o : Opts K) (big : K) (old : DQp K) (ho : o.hotstart = true)
    (y : Nat → K) (q0 : DQp K) (qs : List (DQp K)) (m' : Mem K)
    (h : run R o big old (q0 :: qs) (fresh y) = some m') :
    ∃ a a0, held m'.log = some a ∧ qpoasesArgs big q0 old = some a0 ∧ a.H = a0.H ∧ a.C = a0.C ∧
      ∀ q, qs.getLast? = some q → ∃ b, qpoasesArgs big q old = some b ∧ a.g = b.g ∧ a.lb = b.lb ∧ a.ub = b.ub ∧
          a.lbA = b.lbA ∧ a.ubA = b.ubA := by
  unfold run at h
  cases hs : solve R o big q0 old (fresh y) with
  | none => rw [hs] at h; exact (nomatch h)
  | some r =>
    obtain ⟨st, x, lam, m1⟩ := r
    rw [hs] at h
    simp only at h
    unfold solve at hs
    cases ha : qpoasesArgs big q0 old with
    | none => rw [ha] at hs; exact (nomatch hs)
    | some a0 =>
      rw [ha] at hs
      simp only [Option.some.injEq, Prod.mk.injEq] at hs
      obtain ⟨_, _, _, rfl⟩ := hs
      have hl : held ((fresh y).log ++ [(choose o (fresh y) (!(decide (q0.ng > 0) || decide (q0.ns > 0))) a0).1]) = some a0 := by
        rw [held_snoc]
        unfold choose fresh
        simp only [ho, if_true]
      obtain ⟨_, a, e1, e2, e3, e4⟩ := hot_held R o big old ho qs _ m' a0 (by simp only [ho, if_true]) hl h
      exact ⟨a, a0, e1, rfl, e2, e3, e4⟩

/-! ## HPIPM, DAQP -/

/-- HPIPM: every status is reported under its own name, success exactly for success. -/
theorem C61_hpipm_status (h : Hpipm) :
    (hpipmStatus h = .success ↔ h = .success) ∧ (hpipmStatus h = .maxIter ↔ h = .maxIter) ∧
    (hpipmStatus h = .minStep ↔ h = .minStep) ∧ (hpipmStatus h = .nanDetected ↔ h = .nanSol) ∧
    (hpipmStatus h = .infeasible ↔ h = .inconsEq) := by
  cases h <;> decide

/-- DAQP: success exactly if the problem was set up and DAQP found an optimum. -/
theorem C61_daqp_success (f : DaqpFlags) (setup ldp : Int) :
    daqpStatus f setup ldp = code .success ↔ 0 ≤ setup ∧ (ldp = f.optimal ∨ ldp = f.softOptimal) := by
  unfold daqpStatus
  by_cases h1 : setup < 0
  · rw [if_pos h1]; simp only [code]; omega
  · rw [if_neg h1]
    by_cases h2 : ldp = f.optimal ∨ ldp = f.softOptimal
    · rw [if_pos h2]; exact ⟨fun _ => ⟨by omega, h2⟩, fun _ => rfl⟩
    · rw [if_neg h2]
      refine ⟨fun h => ?_, fun h => absurd h.2 h2⟩
      exfalso
      revert h
      split
      · decide
      · split
        · decide
        · split <;> decide

/-- An infeasibility that DAQP finds while the bounds are checked is not reported as infeasible: the raw flag
(`-1`) is returned, which reads as `ACADOS_UNKNOWN`. -/
theorem C61_daqp_crossed_bounds_unknown (f : DaqpFlags) (hf : f.infeasible = -1) (ldp : Int) :
    daqpStatus f f.infeasible ldp = code .unknown ∧ daqpStatus f f.infeasible ldp ≠ code .infeasible := by
  unfold daqpStatus
  rw [hf, if_pos (by omega)]
  exact ⟨rfl, by decide⟩

end

/-! ## Options of the qpOASES interface -/
section
variable {K : Type*} [Field K] [LinearOrder K]

/-- the value of a tolerance field -/
def OptField.tol : OptField K → Option K
  | .tolStat v | .tolEq v | .tolIneq v | .tolComp v => some v
  | _ => none

/-- sequence of option writes -/
def setAll : List (OptField K) → Opts K → Option (Opts K)
  | [], o => some o
  | f :: fs, o => (optsSet o f).bind (setAll fs)

theorem setAll_tol (fs : List (OptField K)) : ∀ (o o' : Opts K), setAll fs o = some o' →
    o'.tol = (fs.filterMap OptField.tol).foldl min o.tol := by
  induction fs with
  | nil => intro o o' h; simp only [setAll, Option.some.injEq] at h; subst h; rfl
  | cons f fs ih =>
    intro o o' h
    unfold setAll at h
    have cm : ∀ a b : K, cmin a b = min a b := cmin_eq_min
    cases f with
    | tolStat v => rw [optsSet, Option.bind_some] at h; rw [ih _ _ h, List.filterMap_cons]; simp only [OptField.tol, List.foldl_cons, cm]
    | tolEq v => rw [optsSet, Option.bind_some] at h; rw [ih _ _ h, List.filterMap_cons]; simp only [OptField.tol, List.foldl_cons, cm]
    | tolIneq v => rw [optsSet, Option.bind_some] at h; rw [ih _ _ h, List.filterMap_cons]; simp only [OptField.tol, List.foldl_cons, cm]
    | tolComp v => rw [optsSet, Option.bind_some] at h; rw [ih _ _ h, List.filterMap_cons]; simp only [OptField.tol, List.foldl_cons, cm]
    | warmStart v =>
      rw [List.filterMap_cons]
      simp only [OptField.tol]
      rw [optsSet] at h
      split at h
      · exact (ih { o with warm := false, hotstart := false } _ h).trans rfl
      · split at h
        · exact (ih { o with warm := true, hotstart := false } _ h).trans rfl
        · split at h
          · exact (ih { o with warm := true, hotstart := true } _ h).trans rfl
          · exact (nomatch h)
    | iterMax v => exact (ih { o with maxNwsr := v } _ h).trans rfl
    | printLevel v => exact (ih o _ h).trans rfl
    | other => exact (nomatch h)

/-- The tolerance in effect is the smallest value ever written to any of the four tolerance fields, and never
above the default `1e-4`: a tolerance cannot be relaxed. -/
theorem C62_qpoases_tolerance (fs : List (OptField K)) (o : Opts K) (h : setAll fs Opts.default = some o) :
    o.tol = (fs.filterMap OptField.tol).foldl min (1 / 10000) ∧ o.tol ≤ 1 / 10000 ∧
      ∀ f ∈ fs, ∀ v, f.tol = some v → o.tol ≤ v := by
  have e := setAll_tol fs _ _ h
  have hle : ∀ (l : List K) (a : K), l.foldl min a ≤ a ∧ ∀ v ∈ l, l.foldl min a ≤ v := by
    intro l
    induction l with
    | nil => intro a; exact ⟨le_rfl, fun v hv => (nomatch hv)⟩
    | cons b l ih =>
      intro a
      obtain ⟨h1, h2⟩ := ih (min a b)
      refine ⟨h1.trans (min_le_left _ _), fun v hv => ?_⟩
      rcases List.mem_cons.mp hv with rfl | hv
      · exact h1.trans (min_le_right _ _)
      · exact h2 v hv
  refine ⟨e, ?_, fun f hf v hv => ?_⟩
  · rw [e]; exact (hle _ _).1
  · rw [e]; exact (hle _ _).2 v (List.mem_filterMap.mpr ⟨f, hf, hv⟩)

/-- the last value written to a field, `d` if there is none -/
def lastOr {α β : Type*} (f : α → Option β) (l : List α) (d : β) : β := ((l.filterMap f).getLast?).getD d

theorem lastOr_cons {α β : Type*} (f : α → Option β) (a : α) (l : List α) (d : β) :
    lastOr f (a :: l) d = lastOr f l ((f a).getD d) := by
  unfold lastOr
  rw [List.filterMap_cons]
  cases h : f a with
  | none => rfl
  | some b =>
    simp only [Option.getD_some]
    rw [List.getLast?_cons]
    rfl

def OptField.iter : OptField K → Option Int
  | .iterMax v => some v
  | _ => none

/-- level of warm start (0 cold, 1 warm, 2 hot) -/
def OptField.level : OptField K → Option Int
  | .warmStart v => some v
  | _ => none

def Opts.level (o : Opts K) : Int := if o.hotstart then 2 else if o.warm then 1 else 0

omit [Field K] in
/-- Iteration limit and warm start level are the values written last, whatever else was written. -/
theorem C62_qpoases_last_write (fs : List (OptField K)) : ∀ (o o' : Opts K), setAll fs o = some o' →
    o'.maxNwsr = lastOr OptField.iter fs o.maxNwsr ∧ o'.level = lastOr OptField.level fs o.level := by
  induction fs with
  | nil => intro o o' h; simp only [setAll, Option.some.injEq] at h; subst h; exact ⟨rfl, rfl⟩
  | cons f fs ih =>
    intro o o' h
    rw [lastOr_cons, lastOr_cons]
    unfold setAll at h
    cases f with
    | tolStat v => exact ih { o with tol := cmin o.tol v } _ h
    | tolEq v => exact ih { o with tol := cmin o.tol v } _ h
    | tolIneq v => exact ih { o with tol := cmin o.tol v } _ h
    | tolComp v => exact ih { o with tol := cmin o.tol v } _ h
    | warmStart v =>
      rw [optsSet] at h
      split at h
      · subst v; exact ih { o with warm := false, hotstart := false } _ h
      · split at h
        · subst v; exact ih { o with warm := true, hotstart := false } _ h
        · split at h
          · subst v; exact ih { o with warm := true, hotstart := true } _ h
          · exact (nomatch h)
    | iterMax v => exact ih { o with maxNwsr := v } _ h
    | printLevel v => exact ih o _ h
    | other => exact (nomatch h)
end

/-! ## Concrete cases -/

def exR (r : Ret) (l : List (Call ℚ)) : Ans ℚ := { ret := r, x := exX, y := fun i => exY i + l.length }

/-- a cold solve with an unbounded report -/
example : ∃ x lam m', solve (exR .unbounded) { Opts.default with hotstart := false } (10 ^ 10) exQ exQ
    (fresh fun _ => 0) = some (.unbounded, x, lam, m') := by
  have h : (qpoasesArgs (10 ^ 10) exQ exQ).isSome = true := by decide +kernel
  unfold solve
  obtain ⟨a, ha⟩ := Option.isSome_iff_exists.mp h
  rw [ha]
  exact ⟨_, _, _, rfl⟩

/-- the QP with bounds only and the hot start option: an infeasible report becomes success -/
theorem C61_hot_box_infeasible_is_success : ∃ (R : List (Call ℚ) → Ans ℚ) (o : Opts ℚ) (q : DQp ℚ) (x lam : Nat → ℚ)
    (m' : Mem ℚ), (∀ l, (R l).ret = .infeasible) ∧ setAll [.warmStart 2] Opts.default = some o ∧
      solve R o (10 ^ 10) q q (fresh fun _ => 0) = some (.success, x, lam, m') := by
  refine ⟨exR .infeasible, { Opts.default with hotstart := true }, { exQ with ns := 0, idxsRev := fun _ => -1 },
    _, _, _, fun _ => rfl, rfl, rfl⟩

/-- with hot start a changed Hessian is not handed over -/
theorem C61_hot_stale_hessian : ∃ (R : List (Call ℚ) → Ans ℚ) (o : Opts ℚ) (q0 q1 : DQp ℚ) (m' : Mem ℚ) (a b : QArgs ℚ),
    o.hotstart = true ∧ run R o (10 ^ 10) q0 [q0, q1] (fresh fun _ => 0) = some m' ∧ held m'.log = some a ∧
      qpoasesArgs (10 ^ 10) q1 q0 = some b ∧ a.H 0 0 ≠ b.H 0 0 := by
  refine ⟨exR .successful, { Opts.default with hotstart := true }, { exQ with ns := 0, idxsRev := fun _ => -1 },
    { exQ with ns := 0, idxsRev := fun _ => -1, H := fun i j => if i = j then 2 else 0 }, _, _, _, rfl, rfl, rfl, rfl, ?_⟩
  decide +kernel

/-- raising the tolerance has no effect -/
example : ∃ o : Opts ℚ, setAll [.tolStat (1 / 100)] Opts.default = some o ∧ o.tol = 1 / 10000 :=
  ⟨_, rfl, by decide +kernel⟩

example : ∃ o : Opts ℚ, setAll [.tolStat (1 / 1000000), .warmStart 2, .tolEq (1 / 100), .iterMax 7] Opts.default = some o ∧
    o.tol = 1 / 1000000 ∧ o.hotstart = true ∧ o.maxNwsr = 7 :=
  ⟨_, rfl, by decide +kernel, rfl, rfl⟩

example : daqpStatus ⟨1, 2, -4, -1, -3⟩ 0 2 = 0 ∧ daqpStatus ⟨1, 2, -4, -1, -3⟩ 0 (-4) = 2 := by decide

end Acados.QpCall
