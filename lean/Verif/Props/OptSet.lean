import Verif.Lemmas.OptSet

/-!
# C102: options set at run time

`options_set` either changes the option that is named, and nothing else, or raises an exception.
-/

namespace Acados.OptSet

variable {K Q : Type} [Field K] [LinearOrder K]
variable {qpSet : List Char → Cell K → Q → Except Err Q} {c : Config}

omit [LinearOrder K] [Field K] in
theorem cell_ty {t : Ty} {v : PyVal K} {a : Cell K} (h : v.cell t = some a) :
    match t with
    | .int => ∃ n, a = .int n
    | .float => ∃ x, a = .dbl x
    | .bool => ∃ b, a = .bool b := by
  cases t <;> cases v <;> cases h <;> exact ⟨_, rfl⟩

/-- **C102** a call with a value of the type and range of the option, for an option the solver has, succeeds: the option
holds the value, the QP solver gets it if it is an option of the QP solver, and nothing else changes.

Partial: options the solver does not have, and values that are out of range, can end the process or be ignored; the setter
of the QP solver is assumed to accept its options (C100). -/
theorem C102_set_partial {o : Opt} {v : PyVal K} {a : Cell K} {s : St K Q} (hv : v.cell o.ty = some a) (ha : Applies c o)
    (hr : InRange c o a) (hq : ∀ g, o.qp = some g → ∃ q, qpSet g a s.qp = .ok q) :
    ∃ s', optionsSet qpSet c o.name v s = .ok s' ∧
      (∀ r, s'.reg r = if o.reg = some r then stored o a else s.reg r) ∧
      (match o.qp with
       | none => s'.qp = s.qp
       | some g => qpSet g a s.qp = .ok s'.qp) := by
  have hint : ∀ n, a = .int n → -2 ^ 31 ≤ n ∧ n < 2 ^ 31 := by
    rintro n rfl
    cases o <;> simp only [InRange] at hr <;> omega
  have hbuf : pyBuf o.name v = .ok a ∧ ∀ n, a = .int n → v.num = n := by
    cases a with
    | int n =>
      obtain ⟨h1, h2⟩ := hint n rfl
      obtain ⟨h3, h4⟩ := pyBuf_int hv h1 h2
      exact ⟨h3, fun m hm => by cases hm; exact h4⟩
    | dbl x => exact ⟨pyBuf_other hv (fun n hn => by cases hn), fun n hn => by cases hn⟩
    | bool b => exact ⟨pyBuf_other hv (fun n hn => by cases hn), fun n hn => by cases hn⟩
  have hty := cell_ty hv
  have hg : pyGuard c o.name v = .ok () := by
    rw [guard_eq]
    by_cases h1 : o = .maxIter ∨ o = .nlpMaxIter
    · have : ¬ c.maxIter < v.num := by
        rcases h1 with rfl | rfl <;> obtain ⟨n, rfl⟩ := hty <;> have := hbuf.2 n rfl <;> simp only [InRange] at hr <;> omega
      rw [if_neg (fun h => this h.2), if_neg (by rcases h1 with rfl | rfl <;> decide)]
    · rw [if_neg (fun h => h1 h.1)]
      by_cases h2 : o = .rtiPhase
      · subst h2
        obtain ⟨n, rfl⟩ := hty
        have hn := hbuf.2 n rfl
        simp only [InRange] at hr
        rw [if_pos rfl, hn, if_neg (by omega), if_neg (fun h => h.1 ha), if_neg (fun h => h.2.1 (hr.2.2 h.2.2))]
      · rw [if_neg h2]
  have hh : has c.solver c.glob o = true := by
    cases o <;> first | rfl | exact decide_eq_true ha
  suffices h : ∃ s', apply qpSet (decide (c.solver = .rti)) (branchOf o) a s = .ok s' ∧
      ∀ r, s'.reg r = if o.reg = some r then stored o a else s.reg r by
    obtain ⟨s', h1, h2⟩ := h
    refine ⟨s', ?_, h2, (apply_frame h1).2⟩
    unfold optionsSet
    rw [hbuf.1, hg, branch_eq, if_pos hh]
    exact h1
  have hreg : ∀ {t k r0 b}, read t a = .ok b → check (decide (c.solver = .rti)) k b = .ok true →
      ∃ s', apply qpSet (decide (c.solver = .rti)) (.reg t k r0) a s = .ok s' ∧
        ∀ r, s'.reg r = if some r0 = some r then b else s.reg r := by
    intro t k r0 b h1 h2
    refine ⟨{ s with reg := Function.update s.reg r0 b }, ?_, upd s.reg r0 b⟩
    unfold apply
    simp only [h1, bind, Except.bind, h2, if_true]
  cases o
  case printLevel | rtiPhase | asRtiLevel =>
    obtain ⟨n, rfl⟩ := hty
    simp only [InRange] at hr
    exact hreg (t := .int) (b := .int n) rfl (if_neg (by omega))
  case stepLength | funnelPen | funnelDecr | funnelKappa | funnelFrac =>
    obtain ⟨x, rfl⟩ := hty
    exact hreg (t := .float) (b := .dbl x) rfl (if_neg (by push Not; exact hr))
  case funnelIncr | funnelUpper =>
    obtain ⟨x, rfl⟩ := hty
    exact hreg (t := .float) (b := .dbl x) rfl (if_neg (by push Not; exact hr))
  case lineSearch | fullDual | soc =>
    obtain ⟨n, rfl⟩ := hty
    exact hreg (t := .int) (b := .int n) rfl rfl
  case maxIter | nlpMaxIter =>
    obtain ⟨n, rfl⟩ := hty
    refine hreg (t := .int) (k := .maxIter) (b := .int n) rfl ?_
    have : decide (c.solver = .rti) = false := decide_eq_false ha
    rw [this]
    change Except.ok (!(decide (0 < n) && false)) = _
    rw [Bool.and_false]
    rfl
  case warmFirst =>
    obtain ⟨n, rfl⟩ := hty
    rcases hr with rfl | rfl
    · exact hreg (t := .bool) (k := .any) (b := .bool false) rfl rfl
    · exact hreg (t := .bool) (k := .any) (b := .bool true) rfl rfl
  case withAdapt | warmFirstNlp =>
    obtain ⟨b, rfl⟩ := hty
    exact hreg (t := .bool) (b := .bool b) rfl rfl
  case tauMin | tolEq | tolStat | tolIneq | tolComp =>
    obtain ⟨x, rfl⟩ := hty
    obtain ⟨q, hq⟩ := hq _ rfl
    refine ⟨⟨Function.update s.reg _ (.dbl x), q⟩, ?_, upd s.reg _ (.dbl x)⟩
    simp only [branchOf, apply, read, bind, Except.bind, hq]
  case qpWarm =>
    obtain ⟨n, rfl⟩ := hty
    obtain ⟨q, hq⟩ := hq _ rfl
    refine ⟨⟨Function.update s.reg _ (.int n), q⟩, ?_, upd s.reg _ (.int n)⟩
    simp only [branchOf, apply, read, bind, Except.bind, hq]
  case qpPrint | qpT0 | qpTolStat | qpTolEq | qpTolIneq | qpTolComp | qpTauMin | qpMu0 =>
    obtain ⟨q, hq⟩ := hq _ rfl
    refine ⟨{ s with qp := q }, ?_, fun r => (if_neg (by rintro ⟨⟩)).symm⟩
    simp only [branchOf, apply, bind, Except.bind, hq]
  all_goals
    obtain ⟨x, rfl⟩ := hty
    exact hreg (t := .float) (b := .dbl x) rfl rfl

/-- **C102** a name that is no option, and a value that does not have the type of the option, raise an exception -/
theorem C102_reject {f : List Char} {v : PyVal K} {s : St K Q}
    (h : ∀ o : Opt, o.name = f → v.cell o.ty = none) : optionsSet qpSet c f v s = .error .raise := by
  suffices hb : pyBuf f v = .error .raise by
    unfold optionsSet
    rw [hb]
    rfl
  cases ht : pyType f with
  | none => unfold pyBuf; rw [ht]
  | some t =>
    obtain ⟨o, rfl, -⟩ := pyType_some ht
    have hn := h o rfl
    cases hb : pyBuf o.name v with
    | ok buf =>
      obtain ⟨a, ha, -⟩ := pyBuf_ok hb
      rw [ha] at hn
      cases hn
    | error e =>
      unfold pyBuf at hb
      rw [pyType_name] at hb
      cases h' : o.ty <;> rw [h'] at hb <;> cases v <;> cases hb <;> rfl

/-- **C102** a call that succeeds names an option, the value has its type, and no other option of the solver or of the QP
solver changes -/
theorem C102_frame {f : List Char} {v : PyVal K} {s s' : St K Q} (h : optionsSet qpSet c f v s = .ok s') :
    ∃ o : Opt, o.name = f ∧ v.cell o.ty ≠ none ∧ (∀ r, o.reg ≠ some r → s'.reg r = s.reg r) ∧
      (o.qp = none → s'.qp = s.qp) ∧ (∀ g, o.qp = some g → ∃ a, qpSet g a s.qp = .ok s'.qp) := by
  obtain ⟨o, rfl, buf, hb, -, -, ha⟩ := optionsSet_ok h
  obtain ⟨h1, h2⟩ := apply_frame ha
  obtain ⟨a, hva, -⟩ := pyBuf_ok hb
  refine ⟨o, rfl, by rw [hva]; simp, h1, fun hq => ?_, fun g hq => ⟨buf, ?_⟩⟩
  · rw [hq] at h2; exact h2
  · rw [hq] at h2; exact h2

/-- **C102** after any sequence of such calls every option holds the value of the last call for it, and options without
a call hold what they held before.  (Partial as `C102_set_partial`.) -/
theorem C102_history_partial {l : List (Opt × PyVal K × Cell K)} {s : St K Q}
    (hl : ∀ x ∈ l, x.2.1.cell x.1.ty = some x.2.2 ∧ Applies c x.1 ∧ InRange c x.1 x.2.2)
    (hq : ∀ x ∈ l, ∀ g, x.1.qp = some g → ∀ q, ∃ q', qpSet g x.2.2 q = .ok q') :
    ∃ s', runCalls qpSet c (l.map fun x => (x.1.name, x.2.1)) s = .ok s' ∧
      ∀ r, s'.reg r = lastFor r (l.map fun x => (x.1, x.2.2)) (s.reg r) := by
  induction l generalizing s with
  | nil => exact ⟨s, rfl, fun _ => rfl⟩
  | cons x l ih =>
    obtain ⟨h1, h2, h3⟩ := hl x (List.mem_cons_self)
    obtain ⟨s1, e1, r1, -⟩ := C102_set_partial (qpSet := qpSet) (s := s) h1 h2 h3
      (fun g hg => hq x (List.mem_cons_self) g hg s.qp)
    obtain ⟨s2, e2, r2⟩ := ih (s := s1) (fun y hy => hl y (List.mem_cons_of_mem _ hy))
      (fun y hy => hq y (List.mem_cons_of_mem _ hy))
    refine ⟨s2, ?_, fun r => ?_⟩
    · change runCalls qpSet c ((x.1.name, x.2.1) :: _) s = _
      unfold runCalls
      rw [e1]
      exact e2
    · rw [r2 r, r1 r]
      rfl

/-- **C102** whatever calls a program makes, with any names and values, and going on after exceptions: while the process
lives the members hold values of their types, and those that are checked hold values in their ranges -/
theorem C102_domain {l : List (List Char × PyVal K)} {s s' : St K Q} (h : runCalls qpSet c l s = .ok s')
    (hs : ∀ r, Domain r (s.reg r)) : ∀ r, Domain r (s'.reg r) := by
  induction l generalizing s with
  | nil => cases h; exact hs
  | cons x l ih =>
    obtain ⟨f, v⟩ := x
    unfold runCalls at h
    cases ho : optionsSet qpSet c f v s with
    | ok s1 =>
      rw [ho] at h
      obtain ⟨o, rfl, buf, hb, -, -, ha⟩ := optionsSet_ok ho
      exact ih h (apply_domain (pyBuf_fits hb) ha hs)
    | error e =>
      rw [ho] at h
      cases e with
      | raise => exact ih h hs
      | exit => cases h
      | ub => cases h

/-- **C102** HPIPM accepts its options, if its own setter knows `mu0` and `t0_init`: the hypothesis of `C102_set_partial`
and `C102_history_partial` on the QP solver holds for it -/
theorem C102_hpipm {E : QpOpts.Ext} (hE : E.argKnown "mu0".toList = true ∧ E.argKnown "t0_init".toList = true) {o : Opt}
    {g : List Char} (hg : o.qp = some g) {v : PyVal K} {a : Cell K} (hv : v.cell o.ty = some a) {x : QpOpts.Xcond K}
    {p : QpOpts.Hpipm K} (hx : x.qp = .hpipm p) :
    ∃ x' p', qpOf E g a x = .ok x' ∧ x'.qp = .hpipm p' ∧ x'.initNext = x.initNext := by
  obtain ⟨i, q⟩ := x
  cases hx
  have hty := cell_ty hv
  cases o
  case qpT0 =>
    cases hg
    obtain ⟨n, rfl⟩ := hty
    refine ⟨⟨i, .hpipm p⟩, p, ?_, rfl, rfl⟩
    change (match (if E.argKnown "t0_init".toList then Except.ok p else .error .exit : Except QpOpts.Err _).map
      QpOpts.Qp.hpipm |>.map fun q => (⟨i, q⟩ : QpOpts.Xcond K) with
      | .ok x' => Except.ok x' | .error .exit => .error Err.exit | .error _ => .error Err.ub) = _
    rw [hE.2]
    rfl
  case qpMu0 =>
    cases hg
    obtain ⟨n, rfl⟩ := hty
    refine ⟨⟨i, .hpipm p⟩, p, ?_, rfl, rfl⟩
    change (match (if E.argKnown "mu0".toList then Except.ok p else .error .exit : Except QpOpts.Err _).map
      QpOpts.Qp.hpipm |>.map fun q => (⟨i, q⟩ : QpOpts.Xcond K) with
      | .ok x' => Except.ok x' | .error .exit => .error Err.exit | .error _ => .error Err.ub) = _
    rw [hE.1]
    rfl
  all_goals
    cases hg
    try
      obtain ⟨n, rfl⟩ := hty
      exact ⟨_, _, rfl, rfl, rfl⟩

/-! ## Calls that go wrong, and examples -/

/-- a state of the options -/
def s0 {Q : Type} (q : Q) : St ℚ Q :=
  ⟨fun r => match r with
    | .stepLength | .funnelPen => .dbl 1
    | .funnelIncr => .dbl 15
    | .funnelUpper => .dbl 1
    | .funnelDecr | .funnelKappa | .funnelFrac => .dbl (1 / 2)
    | .printLevel | .rtiPhase | .maxIter | .qpWarm | .fullDual | .lineSearch | .soc => .int 0
    | .asRtiLevel => .int 4
    | .withAdapt | .warmFirst | .warmFirstNlp => .bool false
    | _ => .dbl (1 / 1000000), q⟩

/-- a setter that accepts everything -/
def anyQp : List Char → Cell ℚ → Unit → Except Err Unit := fun _ _ _ => .ok ()

/-- configurations: full steps -/
def cSqp : Config := ⟨.sqp, .fixedStep, 100, 4⟩
def cMerit : Config := ⟨.sqp, .merit, 100, 4⟩
def cRti : Config := ⟨.rti, .fixedStep, 100, 4⟩
def cRti0 : Config := ⟨.rti, .fixedStep, 100, 0⟩

/-- the outcome of a call -/
def outcome (c : Config) (f : String) (v : PyVal ℚ) (r : Reg) : Except Err (Cell ℚ) :=
  (optionsSet anyQp c f.toList v (s0 ())).map fun s => s.reg r

/-- **C102, limits** values out of range end the process: they are checked only in C -/
theorem C102_range_counterexample :
    outcome cSqp "print_level" (.int (-1)) .printLevel = .error .exit ∧
    outcome cSqp "globalization_fixed_step_length" (.float 2) .stepLength = .error .exit ∧
    outcome cRti "as_rti_level" (.int 7) .asRtiLevel = .error .exit := by decide +kernel

/-- **C102, limits** options the solver does not have end the process: also `rti_phase = 0`, that the checks accept for
every solver -/
theorem C102_applies_counterexample :
    outcome cSqp "rti_phase" (.int 0) .rtiPhase = .error .exit ∧
    outcome cSqp "rti_phase" (.int 1) .rtiPhase = .error .raise ∧
    outcome cSqp "as_rti_level" (.int 0) .asRtiLevel = .error .exit ∧
    outcome cMerit "globalization_fixed_step_length" (.float (1 / 2)) .stepLength = .error .exit := by decide +kernel

/-- **C102, limits** with the real-time solver `max_iter` is accepted and ignored, unless it is not positive -/
theorem C102_ignored_counterexample :
    outcome cRti "max_iter" (.int 5) .maxIter = .ok (.int 0) ∧ outcome cSqp "max_iter" (.int 5) .maxIter = .ok (.int 5) ∧
    outcome cRti "max_iter" (.int (-3)) .maxIter = .ok (.int (-3)) := by decide +kernel

/-- **C102, limits** integers that do not fit are cut off: the option gets another value, and the limit of the number of
iterations (the size of the statistics) can be passed -/
theorem C102_wrap_counterexample :
    outcome cSqp "print_level" (.int (2 ^ 32)) .printLevel = .ok (.int 0) ∧
    outcome cSqp "max_iter" (.int 101) .maxIter = .error .raise ∧
    outcome cSqp "max_iter" (.int (101 - 2 ^ 32)) .maxIter = .ok (.int 101) := by decide +kernel

/-- **C102, limits** the warm start of the first QP is declared both an integer and a truth value; the integer is passed
and the first byte of it is read as a truth value -/
theorem C102_bool_counterexample :
    outcome cSqp "warm_start_first_qp" (.int 256) .warmFirst = .ok (.bool false) ∧
    outcome cSqp "warm_start_first_qp" (.int 2) .warmFirst = .error .ub ∧
    outcome cSqp "warm_start_first_qp" (.bool true) .warmFirst = .ok (.bool true) := by decide +kernel

/-- **C102, limits** integers for options that are real numbers are refused -/
theorem C102_float_counterexample :
    outcome cSqp "tol_eq" (.int 1) .tolEq = .error .raise ∧ outcome cSqp "tol_eq" (.float 1) .tolEq = .ok (.dbl 1) := by
  decide +kernel

/-- routines of the QP solvers -/
def E0 : QpOpts.Ext := ⟨fun _ => true, fun _ => 0, fun _ => true, fun _ _ => true, fun _ => true⟩
/-- options of OSQP -/
def os0 : QpOpts.Xcond ℚ := ⟨true, .osqp ⟨1 / 1000, 1 / 10000, 1 / 10000, true, false, 0, 4000, 1⟩⟩
/-- options of HPIPM -/
def hp0 : QpOpts.Xcond ℚ := ⟨true, .hpipm (QpOpts.hpipmOverwrite ⟨0, 0, 0, 0, 0, 0, 0, 0⟩)⟩

/-- **C102, limits** options QP solvers other than HPIPM do not have end the process -/
theorem C102_qp_counterexample :
    ((optionsSet (qpOf E0) cSqp "tau_min".toList (.float (1 / 2)) (s0 os0)).map fun s => s.reg .tauMin) = .error .exit ∧
    ((optionsSet (qpOf E0) cSqp "qp_mu0".toList (.float (1 / 2)) (s0 os0)).map fun s => s.reg .tauMin) = .error .exit ∧
    ((optionsSet (qpOf E0) cSqp "tau_min".toList (.float (1 / 2)) (s0 hp0)).map fun s => s.reg .tauMin) =
      .ok (.dbl (1 / 2)) := by
  decide +kernel

/-- **C102, limits** the check of `rti_phase` uses the level of the description.  When the level has been changed with
`options_set`, the phase 0 is accepted and the next call of the solver ends the process, or it is refused although it
would be possible. -/
theorem C102_level_counterexample :
    ((runCalls anyQp cRti [("as_rti_level".toList, .int 0), ("rti_phase".toList, .int 0)] (s0 ())).bind rtiStart) =
      .error .exit ∧
    ((runCalls anyQp cRti [("rti_phase".toList, .int 0)] (s0 ())).bind rtiStart) = .ok () ∧
    ((runCalls anyQp cRti0 [("as_rti_level".toList, .int 4)] (s0 ())).bind
      (optionsSet anyQp cRti0 "rti_phase".toList (.int 0))).map (fun s => s.reg .rtiPhase) = .error .raise := by
  decide +kernel

/-- `C102_set_partial`: the tolerance of an SQP solver with HPIPM -/
example : ∃ s', optionsSet (qpOf E0) cSqp "tol_stat".toList (.float (1 / 100)) (s0 hp0) = .ok s' ∧
    s'.reg .tolStat = .dbl (1 / 100) ∧ s'.reg .tolEq = .dbl (1 / 1000000) := by
  obtain ⟨s', h1, h2, -⟩ := C102_set_partial (qpSet := qpOf E0) (c := cSqp) (o := .tolStat) (v := .float (1 / 100 : ℚ))
    (a := .dbl (1 / 100)) (s := s0 hp0) rfl trivial trivial
    (fun g hg => by
      obtain ⟨x', -, h, -⟩ := C102_hpipm (E := E0) ⟨rfl, rfl⟩ hg (v := .float (1 / 100 : ℚ)) rfl (x := hp0) rfl
      exact ⟨x', h⟩)
  exact ⟨s', h1, h2 _, h2 _⟩

/-- `C102_reject`: an unknown name, and a text for an integer -/
example : optionsSet anyQp cSqp "tolerance".toList (.float 1) (s0 ()) = .error .raise ∧
    optionsSet anyQp cSqp "max_iter".toList .other (s0 ()) = .error .raise :=
  ⟨C102_reject (fun o ho => by
      have h1 := pyType_name o
      have h2 : pyType "tolerance".toList = none := by decide +kernel
      rw [ho, h2] at h1
      cases h1),
   C102_reject (fun o _ => by cases o.ty <;> rfl)⟩

/-- `C102_frame`, `C102_history_partial`, `C102_domain`: a sequence of calls, one of them refused -/
example : ((runCalls anyQp cSqp [("tol_eq".toList, .float (1 / 10)), ("max_iter".toList, .int 101),
      ("print_level".toList, .int 1), ("tol_eq".toList, .float (1 / 20))] (s0 ())).map
      fun s => (s.reg .tolEq, s.reg .maxIter, s.reg .printLevel)) = .ok (.dbl (1 / 20), .int 0, .int 1) := by
  decide +kernel

example : ∃ s', runCalls anyQp cSqp [("tol_eq".toList, .float (1 / 10)), ("max_iter".toList, .int 50),
      ("tol_eq".toList, .float (1 / 20))] (s0 ()) = .ok s' ∧ s'.reg .tolEq = .dbl (1 / 20) ∧
      s'.reg .maxIter = .int 50 ∧ s'.reg .printLevel = .int 0 := by
  obtain ⟨s', h1, h2⟩ := C102_history_partial (qpSet := anyQp) (c := cSqp) (s := s0 ())
    (l := [(.tolEq, .float (1 / 10), .dbl (1 / 10)), (.maxIter, .int 50, .int 50), (.tolEq, .float (1 / 20), .dbl (1 / 20))])
    (by
      intro x hx
      simp only [List.mem_cons, List.not_mem_nil, or_false] at hx
      rcases hx with rfl | rfl | rfl
      · exact ⟨rfl, trivial, trivial⟩
      · exact ⟨rfl, (by decide : Solver.sqp ≠ .rti), (by decide : (-2 ^ 31 : Int) ≤ 50 ∧ (50 : Int) < 2 ^ 31 ∧ (50 : Int) ≤ 100)⟩
      · exact ⟨rfl, trivial, trivial⟩)
    (fun _ _ _ _ _ => ⟨(), rfl⟩)
  exact ⟨s', h1, h2 _, h2 _, h2 _⟩

example : ∀ r, Domain r ((s0 ()).reg r) := by
  intro r
  cases r <;> first | exact ⟨_, rfl⟩ | (refine ⟨_, rfl, ?_⟩; norm_num)

end Acados.OptSet
