import Verif.Model.OptSet
import Mathlib.Tactic.Linarith

/-!
# Lemmas on the options set from Python
-/

namespace Acados.OptSet

/-- the branch of the C setters for an option of a solver that has it -/
def branchOf : Opt → Branch
  | .printLevel => .reg .int .nonneg .printLevel
  | .rtiPhase => .reg .int (.intIn 0 2) .rtiPhase
  | .lineSearch => .reg .int .any .lineSearch
  | .fullDual => .reg .int .any .fullDual
  | .soc => .reg .int .any .soc
  | .warmFirst => .reg .bool .any .warmFirst
  | .asRtiLevel => .reg .int (.intIn 0 4) .asRtiLevel
  | .maxIter => .reg .int .maxIter .maxIter
  | .nlpMaxIter => .reg .int .maxIter .maxIter
  | .qpWarm => .qp "warm_start".toList (some .qpWarm)
  | .qpPrint => .qp "print_level".toList none
  | .qpT0 => .qp "t0_init".toList none
  | .stepLength => .reg .float .closed01 .stepLength
  | .alphaMin => .reg .float .any .alphaMin
  | .alphaRed => .reg .float .any .alphaRed
  | .eps => .reg .float .any .eps
  | .funnelIncr => .reg .float .gt1 .funnelIncr
  | .funnelUpper => .reg .float .pos .funnelUpper
  | .funnelDecr => .reg .float .open01 .funnelDecr
  | .funnelKappa => .reg .float .open01 .funnelKappa
  | .funnelFrac => .reg .float .open01 .funnelFrac
  | .funnelPen => .reg .float .closed01 .funnelPen
  | .levMarq => .reg .float .any .levMarq
  | .adaptLam => .reg .float .any .adaptLam
  | .adaptMuMin => .reg .float .any .adaptMuMin
  | .adaptMu0 => .reg .float .any .adaptMu0
  | .tauMin => .regQp .float .tauMin "tau_min".toList
  | .tolEq => .regQp .float .tolEq "tol_eq".toList
  | .tolStat => .regQp .float .tolStat "tol_stat".toList
  | .tolIneq => .regQp .float .tolIneq "tol_ineq".toList
  | .tolComp => .regQp .float .tolComp "tol_comp".toList
  | .qpTolStat => .qp "tol_stat".toList none
  | .qpTolEq => .qp "tol_eq".toList none
  | .qpTolIneq => .qp "tol_ineq".toList none
  | .qpTolComp => .qp "tol_comp".toList none
  | .qpTauMin => .qp "tau_min".toList none
  | .qpMu0 => .qp "mu0".toList none
  | .anderson => .reg .float .any .anderson
  | .withAdapt => .reg .bool .any .withAdapt
  | .warmFirstNlp => .reg .bool .any .warmFirstNlp

/-- options with their own solver or globalization -/
def has (s : Solver) (g : Glob) : Opt → Bool
  | .rtiPhase | .asRtiLevel => s = .rti
  | .stepLength => g = .fixedStep
  | .funnelIncr | .funnelUpper | .funnelDecr | .funnelKappa | .funnelFrac | .funnelPen => g = .funnel
  | _ => true

/-- all options -/
def Opt.all : List Opt :=
  [.printLevel, .rtiPhase, .lineSearch, .fullDual, .soc, .warmFirst, .asRtiLevel, .maxIter, .nlpMaxIter, .qpWarm,
   .qpPrint, .qpT0, .stepLength, .alphaMin, .alphaRed, .eps, .funnelIncr, .funnelUpper, .funnelDecr, .funnelKappa,
   .funnelFrac, .funnelPen, .levMarq, .adaptLam, .adaptMuMin, .adaptMu0, .tauMin, .tolEq, .tolStat, .tolIneq, .tolComp,
   .qpTolStat, .qpTolEq, .qpTolIneq, .qpTolComp, .qpTauMin, .qpMu0, .anderson, .withAdapt, .warmFirstNlp]

theorem mem_all (o : Opt) : o ∈ Opt.all := by cases o <;> decide

theorem branch_eq (s : Solver) (g : Glob) (o : Opt) :
    solverBranch s g o.name = if has s g o then some (branchOf o) else none := by
  have h : ∀ s ∈ [Solver.sqp, .rti, .ddp, .wfqp], ∀ g ∈ [Glob.fixedStep, .merit, .funnel], ∀ o ∈ Opt.all,
      solverBranch s g o.name = if has s g o then some (branchOf o) else none := by decide +kernel
  exact h s (by cases s <;> decide) g (by cases g <;> decide) o (mem_all o)

theorem pyType_name (o : Opt) : pyType o.name = some o.ty := by
  have h : ∀ o ∈ Opt.all, pyType o.name = some o.ty := by decide +kernel
  exact h o (mem_all o)

theorem pyType_some {f : List Char} {t : Ty} (h : pyType f = some t) : ∃ o : Opt, o.name = f ∧ o.ty = t := by
  have hall : ∀ g ∈ intFields ++ doubleFields ++ boolFields, g ∈ Opt.all.map Opt.name := by decide +kernel
  have hm : f ∈ Opt.all.map Opt.name := by
    apply hall
    unfold pyType at h
    simp only [List.mem_append]
    split at h
    · next hx => exact .inl (.inl hx)
    · split at h
      · next hx => exact .inl (.inr hx)
      · split at h
        · next hx => exact .inr hx
        · cases h
  obtain ⟨o, -, ho⟩ := List.mem_map.1 hm
  refine ⟨o, ho, ?_⟩
  have := pyType_name o
  rw [ho, h] at this
  injection this with this
  exact this.symm

theorem name_inj {o o' : Opt} (h : o.name = o'.name) : o = o' := by
  have hall : ∀ a ∈ Opt.all, ∀ b ∈ Opt.all, a.name = b.name → a = b := by decide +kernel
  exact hall o (mem_all o) o' (mem_all o') h

theorem wrap_id {n : Int} (h1 : -2 ^ 31 ≤ n) (h2 : n < 2 ^ 31) : wrap n = n := by
  unfold wrap
  norm_num at h1 h2
  omega

theorem wrap_range (n : Int) : -2 ^ 31 ≤ wrap n ∧ wrap n < 2 ^ 31 := by
  unfold wrap
  norm_num
  omega

variable {K Q : Type} [Field K] [LinearOrder K]

theorem ok_bind {ε α β : Type} {x : Except ε α} {f : α → Except ε β} {b : β} (h : x.bind f = .ok b) :
    ∃ a, x = .ok a ∧ f a = .ok b := by
  cases x with
  | error e => cases h
  | ok a => exact ⟨a, rfl, h⟩

omit [Field K] [LinearOrder K] in
/-- the buffer for an option -/
theorem pyBuf_ok {o : Opt} {v : PyVal K} {buf : Cell K} (h : pyBuf o.name v = .ok buf) :
    ∃ a, v.cell o.ty = some a ∧
      ((∃ n, a = .int n ∧ buf = .int (wrap n)) ∨ ((∀ n, a ≠ .int n) ∧ buf = a)) := by
  unfold pyBuf at h
  rw [pyType_name] at h
  cases ht : o.ty <;> rw [ht] at h <;> cases v <;> simp only at h <;> cases h
  · exact ⟨_, rfl, .inl ⟨_, rfl, rfl⟩⟩
  · next b => exact ⟨_, rfl, .inl ⟨_, rfl, by cases b <;> rfl⟩⟩
  · exact ⟨_, rfl, .inr ⟨by simp, rfl⟩⟩
  · exact ⟨_, rfl, .inr ⟨by simp, rfl⟩⟩

omit [Field K] [LinearOrder K] in
theorem pyBuf_int {o : Opt} {v : PyVal K} {n : Int} (h : v.cell o.ty = some (.int n)) (h1 : -2 ^ 31 ≤ n) (h2 : n < 2 ^ 31) :
    pyBuf o.name v = .ok (.int n) ∧ v.num = n := by
  unfold pyBuf
  rw [pyType_name]
  cases ht : o.ty <;> rw [ht] at h <;> cases v <;> simp only [PyVal.cell, Option.some.injEq, Cell.int.injEq] at h <;>
    cases h
  · exact ⟨by simp only [wrap_id h1 h2], rfl⟩
  · exact ⟨rfl, rfl⟩

omit [Field K] [LinearOrder K] in
theorem pyBuf_other {o : Opt} {v : PyVal K} {a : Cell K} (h : v.cell o.ty = some a) (hn : ∀ n, a ≠ .int n) :
    pyBuf o.name v = .ok a := by
  unfold pyBuf
  rw [pyType_name]
  cases ht : o.ty <;> rw [ht] at h <;> cases v <;> simp only [PyVal.cell, Option.some.injEq] at h <;>
    first | (subst h; rfl) | (subst h; exact absurd rfl (hn _)) | cases h

omit [Field K] [LinearOrder K] in
theorem guard_eq (c : Config) (o : Opt) (v : PyVal K) : pyGuard c o.name v =
    if (o = .maxIter ∨ o = .nlpMaxIter) ∧ c.maxIter < v.num then .error .raise
    else if o = .rtiPhase then
      if v.num < 0 ∨ 2 < v.num then .error .raise
      else if c.solver ≠ .rti ∧ 0 < v.num then .error .raise
      else if c.solver = .rti ∧ c.asRtiLevel ≠ 4 ∧ v.num = 0 then .error .raise
      else .ok ()
    else .ok () := by
  have h1 : (o.name = "max_iter".toList ∨ o.name = "nlp_solver_max_iter".toList) ↔ (o = .maxIter ∨ o = .nlpMaxIter) :=
    ⟨fun h => h.imp (fun h => name_inj (o' := .maxIter) h) (fun h => name_inj (o' := .nlpMaxIter) h),
      fun h => by rcases h with rfl | rfl; exacts [.inl rfl, .inr rfl]⟩
  have h2 : o.name = "rti_phase".toList ↔ o = .rtiPhase := ⟨fun h => name_inj (o' := .rtiPhase) h, fun h => h ▸ rfl⟩
  unfold pyGuard
  simp only [h1, h2]

/-- the calls that are successful: option, value and branch -/
theorem optionsSet_ok {qpSet : List Char → Cell K → Q → Except Err Q} {c : Config} {f : List Char} {v : PyVal K}
    {s s' : St K Q} (h : optionsSet qpSet c f v s = .ok s') :
    ∃ o : Opt, o.name = f ∧ ∃ buf, pyBuf o.name v = .ok buf ∧ pyGuard c o.name v = .ok () ∧
      has c.solver c.glob o = true ∧ apply qpSet (decide (c.solver = .rti)) (branchOf o) buf s = .ok s' := by
  obtain ⟨buf, hb, h⟩ := ok_bind (x := pyBuf f v) h
  obtain ⟨⟨⟩, hg, h⟩ := ok_bind (x := pyGuard c f v) h
  have : ∃ t, pyType f = some t := by
    unfold pyBuf at hb
    cases ht : pyType f with
    | none => rw [ht] at hb; cases hb
    | some t => exact ⟨t, rfl⟩
  obtain ⟨t, ht⟩ := this
  obtain ⟨o, rfl, -⟩ := pyType_some ht
  rw [branch_eq] at h
  by_cases hh : has c.solver c.glob o = true
  · rw [if_pos hh] at h
    exact ⟨o, rfl, buf, hb, hg, hh, h⟩
  · rw [if_neg hh] at h
    cases h

/-- an `int` object holds 32 bits -/
def Fits : Cell K → Prop
  | .int n => -2 ^ 31 ≤ n ∧ n < 2 ^ 31
  | _ => True

omit [Field K] [LinearOrder K] in
theorem pyBuf_fits {o : Opt} {v : PyVal K} {buf : Cell K} (h : pyBuf o.name v = .ok buf) : Fits buf := by
  obtain ⟨a, -, ⟨n, -, rfl⟩ | ⟨hn, rfl⟩⟩ := pyBuf_ok h
  · exact wrap_range n
  · cases buf with
    | int n => exact absurd rfl (hn n)
    | dbl x => trivial
    | bool b => trivial

omit [Field K] [LinearOrder K] in
theorem read_int {buf a : Cell K} (hf : Fits buf) (h : read .int buf = .ok a) :
    ∃ n, a = .int n ∧ -2 ^ 31 ≤ n ∧ n < 2 ^ 31 := by
  cases buf <;> cases h
  exact ⟨_, rfl, hf⟩

omit [Field K] [LinearOrder K] in
theorem read_float {buf a : Cell K} (h : read .float buf = .ok a) : ∃ x, a = .dbl x := by
  cases buf <;> cases h
  exact ⟨_, rfl⟩

omit [Field K] [LinearOrder K] in
theorem read_bool {buf a : Cell K} (h : read .bool buf = .ok a) : ∃ b, a = .bool b := by
  cases buf with
  | int n =>
    change (if n % 256 = 0 then Except.ok (Cell.bool false) else if n % 256 = 1 then Except.ok (Cell.bool true) else
      Except.error Err.ub) = _ at h
    split at h
    · cases h; exact ⟨_, rfl⟩
    · split at h
      · cases h; exact ⟨_, rfl⟩
      · cases h
  | dbl x => cases h
  | bool b => cases h; exact ⟨_, rfl⟩

theorem reg_domain {qpSet : List Char → Cell K → Q → Except Err Q} {rt : Bool} {t : Ty} {k : Chk} {r : Reg} {buf : Cell K}
    {s s' : St K Q} (hk : ∀ a, read t buf = .ok a → check rt k a = .ok true → Domain r a)
    (h : apply qpSet rt (.reg t k r) buf s = .ok s') (hs : ∀ r, Domain r (s.reg r)) : ∀ r, Domain r (s'.reg r) := by
  obtain ⟨a, ha, h⟩ := ok_bind (x := read t buf) h
  obtain ⟨w, hw, h⟩ := ok_bind (x := check rt k a) h
  injection h with h
  subst h
  cases w
  · exact hs
  · intro r'
    simp only [if_true]
    unfold Function.update
    split
    · next e => subst e; exact hk a ha hw
    · exact hs r'

theorem regQp_domain {qpSet : List Char → Cell K → Q → Except Err Q} {rt : Bool} {t : Ty} {g : List Char} {r : Reg}
    {buf : Cell K} {s s' : St K Q} (hk : ∀ a, read t buf = .ok a → Domain r a)
    (h : apply qpSet rt (.regQp t r g) buf s = .ok s') (hs : ∀ r, Domain r (s.reg r)) : ∀ r, Domain r (s'.reg r) := by
  obtain ⟨a, ha, h⟩ := ok_bind (x := read t buf) h
  obtain ⟨q, hq, h⟩ := ok_bind (x := qpSet g buf s.qp) h
  injection h with h
  subst h
  intro r'
  simp only
  unfold Function.update
  split
  · next e => subst e; exact hk a ha
  · exact hs r'

theorem qp_domain {qpSet : List Char → Cell K → Q → Except Err Q} {rt : Bool} {g : List Char} {r : Option Reg}
    {buf : Cell K} {s s' : St K Q} (hk : ∀ a r0, r = some r0 → read .int buf = .ok a → Domain r0 a)
    (h : apply qpSet rt (.qp g r) buf s = .ok s') (hs : ∀ r, Domain r (s.reg r)) : ∀ r, Domain r (s'.reg r) := by
  obtain ⟨q, hq, h⟩ := ok_bind (x := qpSet g buf s.qp) h
  cases r with
  | none => injection h with h; subst h; exact hs
  | some r0 =>
    obtain ⟨a, ha, h⟩ := ok_bind (x := read .int buf) h
    injection h with h
    subst h
    intro r'
    simp only
    unfold Function.update
    split
    · next e => subst e; exact hk a _ rfl ha
    · exact hs r'

/-- members stay in their domains -/
theorem apply_domain {qpSet : List Char → Cell K → Q → Except Err Q} {rt : Bool} {o : Opt} {buf : Cell K} {s s' : St K Q}
    (hf : Fits buf) (h : apply qpSet rt (branchOf o) buf s = .ok s') (hs : ∀ r, Domain r (s.reg r)) :
    ∀ r, Domain r (s'.reg r) := by
  cases o
  case printLevel =>
    refine reg_domain (fun a ha hc => ?_) h hs
    obtain ⟨n, rfl, -, h2⟩ := read_int hf ha
    change (if n < 0 then Except.error Err.exit else .ok true) = _ at hc
    split at hc
    · cases hc
    · exact ⟨n, rfl, by omega, h2⟩
  case rtiPhase =>
    refine reg_domain (fun a ha hc => ?_) h hs
    obtain ⟨n, rfl, -, -⟩ := read_int hf ha
    change (if n < 0 ∨ 2 < n then Except.error Err.exit else .ok true) = _ at hc
    split at hc
    · cases hc
    · exact ⟨n, rfl, by omega, by omega⟩
  case asRtiLevel =>
    refine reg_domain (fun a ha hc => ?_) h hs
    obtain ⟨n, rfl, -, -⟩ := read_int hf ha
    change (if n < 0 ∨ 4 < n then Except.error Err.exit else .ok true) = _ at hc
    split at hc
    · cases hc
    · exact ⟨n, rfl, by omega, by omega⟩
  case stepLength | funnelPen =>
    refine reg_domain (fun a ha hc => ?_) h hs
    obtain ⟨x, rfl⟩ := read_float ha
    change (if x < 0 ∨ 1 < x then Except.error Err.exit else .ok true) = _ at hc
    split at hc
    · cases hc
    · next hx => push Not at hx; exact ⟨x, rfl, hx⟩
  case funnelDecr | funnelKappa | funnelFrac =>
    refine reg_domain (fun a ha hc => ?_) h hs
    obtain ⟨x, rfl⟩ := read_float ha
    change (if x ≤ 0 ∨ 1 ≤ x then Except.error Err.exit else .ok true) = _ at hc
    split at hc
    · cases hc
    · next hx => push Not at hx; exact ⟨x, rfl, hx⟩
  case funnelIncr =>
    refine reg_domain (fun a ha hc => ?_) h hs
    obtain ⟨x, rfl⟩ := read_float ha
    change (if x ≤ 1 then Except.error Err.exit else .ok true) = _ at hc
    split at hc
    · cases hc
    · next hx => push Not at hx; exact ⟨x, rfl, hx⟩
  case funnelUpper =>
    refine reg_domain (fun a ha hc => ?_) h hs
    obtain ⟨x, rfl⟩ := read_float ha
    change (if x ≤ 0 then Except.error Err.exit else .ok true) = _ at hc
    split at hc
    · cases hc
    · next hx => push Not at hx; exact ⟨x, rfl, hx⟩
  case lineSearch | fullDual | soc | maxIter | nlpMaxIter =>
    refine reg_domain (fun a ha hc => ?_) h hs
    exact read_int hf ha
  case warmFirst | withAdapt | warmFirstNlp =>
    refine reg_domain (fun a ha hc => ?_) h hs
    exact read_bool ha
  case qpWarm =>
    refine qp_domain (fun a r0 hr ha => ?_) h hs
    injection hr with hr
    subst hr
    exact read_int hf ha
  case tauMin | tolEq | tolStat | tolIneq | tolComp =>
    refine regQp_domain (fun a ha => ?_) h hs
    exact read_float ha
  case qpPrint | qpT0 | qpTolStat | qpTolEq | qpTolIneq | qpTolComp | qpTauMin | qpMu0 =>
    exact qp_domain (fun a r0 hr ha => by cases hr) h hs
  all_goals
    refine reg_domain (fun a ha hc => ?_) h hs
    exact read_float ha

/-- only the member of the option changes -/
theorem apply_frame {qpSet : List Char → Cell K → Q → Except Err Q} {rt : Bool} {o : Opt} {buf : Cell K} {s s' : St K Q}
    (h : apply qpSet rt (branchOf o) buf s = .ok s') :
    (∀ r, o.reg ≠ some r → s'.reg r = s.reg r) ∧
    (match o.qp with
     | none => s'.qp = s.qp
     | some g => qpSet g buf s.qp = .ok s'.qp) := by
  have hreg : ∀ {t k r0}, apply qpSet rt (.reg t k r0) buf s = .ok s' → (∀ r, some r0 ≠ some r → s'.reg r = s.reg r) ∧
      s'.qp = s.qp := by
    intro t k r0 h
    obtain ⟨a, ha, h⟩ := ok_bind (x := read t buf) h
    obtain ⟨w, hw, h⟩ := ok_bind (x := check rt k a) h
    injection h with h
    subst h
    cases w
    · exact ⟨fun _ _ => rfl, rfl⟩
    · exact ⟨fun r hr => Function.update_of_ne (fun e => hr (by rw [e])) _ _, rfl⟩
  have hregQp : ∀ {t r0 g}, apply qpSet rt (.regQp t r0 g) buf s = .ok s' → (∀ r, some r0 ≠ some r → s'.reg r = s.reg r) ∧
      qpSet g buf s.qp = .ok s'.qp := by
    intro t r0 g h
    obtain ⟨a, ha, h⟩ := ok_bind (x := read t buf) h
    obtain ⟨q, hq, h⟩ := ok_bind (x := qpSet g buf s.qp) h
    injection h with h
    subst h
    exact ⟨fun r hr => Function.update_of_ne (fun e => hr (by rw [e])) _ _, hq⟩
  have hqp : ∀ {g r0}, apply qpSet rt (.qp g r0) buf s = .ok s' → (∀ r, r0 ≠ some r → s'.reg r = s.reg r) ∧
      qpSet g buf s.qp = .ok s'.qp := by
    intro g r0 h
    obtain ⟨q, hq, h⟩ := ok_bind (x := qpSet g buf s.qp) h
    cases r0 with
    | none => injection h with h; subst h; exact ⟨fun _ _ => rfl, hq⟩
    | some r0 =>
      obtain ⟨a, ha, h⟩ := ok_bind (x := read .int buf) h
      injection h with h
      subst h
      exact ⟨fun r hr => Function.update_of_ne (fun e => hr (by rw [e])) _ _, hq⟩
  cases o <;> first | exact hreg h | exact hregQp h | exact hqp h

omit [Field K] [LinearOrder K] in
theorem upd (m : Reg → Cell K) (r0 : Reg) (b : Cell K) (r : Reg) :
    Function.update m r0 b r = if some r0 = some r then b else m r := by
  by_cases h : r = r0
  · subst h
    rw [Function.update_self, if_pos rfl]
  · rw [Function.update_of_ne h, if_neg (fun e => h (by injection e with e; exact e.symm))]

end Acados.OptSet
