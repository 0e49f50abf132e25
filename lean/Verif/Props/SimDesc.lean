import Verif.Model.SimDesc
import Mathlib.Tactic.SplitIfs

/-!
C107: descriptions of integrators.
-/

namespace Acados.SimDesc

section
variable {K : Type*}

theorem check_eq (m : Model) :
    (m.Ok → m.check = some { m with xdot := m.x }) ∧ (¬ m.Ok → m.check = none) := by
  unfold Model.check Model.Ok
  constructor
  · rintro ⟨h1, h2, h3, h4, h5⟩
    rw [if_neg (by omega), if_neg (by omega), if_neg (by omega), if_neg (by omega),
      if_neg (by omega)]
  · intro h
    by_cases h1 : m.x = 0
    · rw [if_pos h1]
    by_cases h2 : m.xdot ≠ 0 ∧ m.xdot ≠ m.x
    · rw [if_neg h1, if_pos h2]
    by_cases h3 : m.pGlobal ≠ 0
    · rw [if_neg h1, if_neg h2, if_pos h3]
    by_cases h4 : m.fImpl ≠ 0 ∧ m.fImpl ≠ m.x + m.z
    · rw [if_neg h1, if_neg h2, if_neg h3, if_pos h4]
    by_cases h5 : m.fExpl ≠ 0 ∧ m.fExpl ≠ m.x
    · rw [if_neg h1, if_neg h2, if_neg h3, if_neg h4, if_pos h5]
    · exact absurd ⟨by omega, by omega, by omega, by omega, by omega⟩ h

/-- What a successful call of `make_consistent` says about the description before, and what the
description is after. -/
theorem consistent_some (env cwd : String) (H : Model → Opts K → String) (s s' : Sim K) (w : List Fd) :
    consistent env cwd H s = some (s', w) ↔
      s.model.Ok ∧ s.shape.head? = some s.model.p ∧ s.opts.T ≠ none ∧ SensOk s.gen s.opts.integ ∧
      s.model.Has s.opts.integ ∧
      ∃ c, transferSens s.opts.sensP s.gen.sensP = some c ∧
        s' = { s with
          model := { s.model with xdot := s.model.x }
          gen := Gen.paths cwd (s.name.getD ("sim_" ++ s.model.name ++ "_" ++
              H { s.model with xdot := s.model.x } s.opts))
            { s.gen with
              flags := (transfer env s.opts.flags s.gen.flags).1
              expand := (transfer false s.opts.expand s.gen.expand).1
              sensP := c.1
              hess := s.opts.sensHess }
          name := some (s.name.getD ("sim_" ++ s.model.name ++ "_" ++
            H { s.model with xdot := s.model.x } s.opts)) } ∧
        w = warnings (transfer env s.opts.flags s.gen.flags).2
          (transfer false s.opts.expand s.gen.expand).2 c.2 := by
  by_cases hm : s.model.Ok
  swap
  · unfold consistent
    rw [(check_eq s.model).2 hm]
    simp [hm]
  unfold consistent
  rw [(check_eq s.model).1 hm]
  simp only [hm, true_and]
  by_cases h1 : s.shape.head? = some s.model.p
  swap
  · simp [h1]
  by_cases h2 : s.opts.T = none
  · simp [h1, h2]
  by_cases h3 : SensOk s.gen s.opts.integ
  swap
  · have : s.gen.sensP = true ∧ s.opts.integ = .gnsf := by
      simpa [SensOk] using h3
    have h2' : ¬ (s.opts.T.isNone = true) := by simpa using h2
    rw [if_neg (by simp [h1]), if_neg h2', if_pos this]
    exact ⟨(fun h => nomatch h), fun h => absurd h.2.2.1 h3⟩
  have h3' : ¬ (s.gen.sensP = true ∧ s.opts.integ = .gnsf) := fun h => h3 h.1 h.2
  by_cases h4 : s.model.Has s.opts.integ
  swap
  · rcases hi : s.opts.integ <;> rw [hi] at h4 <;> simp [Model.Has] at h4 <;> simp [h4, Model.Has]
  have h4' : ¬ (s.opts.integ = .erk ∧ s.model.fExpl = 0) := by
    rintro ⟨a, b⟩
    rw [a] at h4
    exact h4 b
  have h5' : ¬ (s.opts.integ ≠ .erk ∧ s.model.fImpl = 0) := by
    rintro ⟨a, b⟩
    rcases hi : s.opts.integ <;> rw [hi] at h4 a
    · exact a rfl
    · exact h4 b
    · exact h4 b
  have h2' : ¬ (s.opts.T.isNone = true) := by simpa using h2
  rw [if_neg (by simp [h1]), if_neg h2', if_neg h3', if_neg h4', if_neg h5']
  simp only [h1, h2, h3, h4, ne_eq, not_false_eq_true, true_and]
  rcases hc : transferSens s.opts.sensP s.gen.sensP with _ | c
  · simp
  · simp only [Option.some.injEq, Prod.mk.injEq, exists_eq_left']
    exact ⟨fun ⟨a, b⟩ => ⟨a.symm, b.symm⟩, fun ⟨a, b⟩ => ⟨a.symm, b.symm⟩⟩

theorem transferSens_none (o : Truth) (n : Bool) :
    transferSens o n = none ↔ o.val = true ∧ o.isBool = false ∧ n = false := by
  obtain ⟨v, b⟩ := o
  cases v <;> cases b <;> cases n <;> decide

/-- **C107.** Which descriptions are accepted: the lengths agree with the documentation, there are as
many rows of parameter values as parameters, the time and the expression that the integrator needs
are given, parameter sensitivities are supported, and the deprecated option for them is a `bool` if
it is used. -/
theorem C107_accepts (env cwd : String) (H : Model → Opts K → String) (s : Sim K) :
    consistent env cwd H s ≠ none ↔
      s.model.Ok ∧ s.shape.head? = some s.model.p ∧ s.opts.T ≠ none ∧ SensOk s.gen s.opts.integ ∧
      s.model.Has s.opts.integ ∧
      ¬ (s.opts.sensP.val = true ∧ s.opts.sensP.isBool = false ∧ s.gen.sensP = false) := by
  constructor
  · intro h
    obtain ⟨⟨s', w⟩, hs⟩ := Option.ne_none_iff_exists'.1 h
    obtain ⟨h1, h2, h3, h4, h5, c, hc, -⟩ := (consistent_some env cwd H s s' w).1 hs
    refine ⟨h1, h2, h3, h4, h5, fun hn => ?_⟩
    rw [(transferSens_none _ _).2 hn] at hc
    cases hc
  · rintro ⟨h1, h2, h3, h4, h5, h6⟩
    have : transferSens s.opts.sensP s.gen.sensP ≠ none := fun h => h6 ((transferSens_none _ _).1 h)
    obtain ⟨c, hc⟩ := Option.ne_none_iff_exists'.1 this
    rw [(consistent_some env cwd H s _ _).2 ⟨h1, h2, h3, h4, h5, c, hc, rfl, rfl⟩]
    exact Option.some_ne_none _

theorem transfer_eff {α : Type*} [DecidableEq α] (d o n : α) :
    (transfer d o n).1 = effective d o n ∧ ((transfer d o n).2 = true ↔ o ≠ d ∧ n ≠ d) := by
  unfold transfer effective
  by_cases h1 : o = d <;> by_cases h2 : n = d <;> simp [h1, h2]

theorem transferSens_eff (o : Truth) (n : Bool) (c : Bool × Bool) (h : transferSens o n = some c) :
    c.1 = effective false o.val n ∧ (c.2 = true ↔ o.val ≠ false ∧ n ≠ false) := by
  obtain ⟨v, b⟩ := o
  cases v <;> cases b <;> cases n <;> simp [transferSens] at h <;> subst h <;> decide

theorem mem_warnings (a b c : Bool) (f : Fd) :
    f ∈ warnings a b c ↔ (f = .flags ∧ a = true) ∨ (f = .expand ∧ b = true) ∨ (f = .sensP ∧ c = true) := by
  cases f <;> cases a <;> cases b <;> cases c <;> decide

/-- **C107.** Options of the generated code: an option of code generation that is not at its default
is kept, otherwise the deprecated one is used; there is a warning exactly if both are not at the
default. Nothing else of the description changes but names of files. -/
theorem C107_options (env cwd : String) (H : Model → Opts K → String) (s s' : Sim K) (w : List Fd)
    (h : consistent env cwd H s = some (s', w)) :
    s'.gen.flags = effective env s.opts.flags s.gen.flags ∧
    s'.gen.expand = effective false s.opts.expand s.gen.expand ∧
    s'.gen.sensP = effective false s.opts.sensP.val s.gen.sensP ∧
    s'.gen.hess = s.opts.sensHess ∧
    (Fd.flags ∈ w ↔ s.opts.flags ≠ env ∧ s.gen.flags ≠ env) ∧
    (Fd.expand ∈ w ↔ s.opts.expand ≠ false ∧ s.gen.expand ≠ false) ∧
    (Fd.sensP ∈ w ↔ s.opts.sensP.val ≠ false ∧ s.gen.sensP ≠ false) ∧
    s'.opts = s.opts ∧ s'.shape = s.shape ∧ s'.values = s.values ∧
    s'.model = { s.model with xdot := s.model.x } := by
  obtain ⟨-, -, -, -, -, c, hc, rfl, rfl⟩ := (consistent_some env cwd H s s' w).1 h
  have hf := transfer_eff env s.opts.flags s.gen.flags
  have he := transfer_eff false s.opts.expand s.gen.expand
  have hs := transferSens_eff _ _ c hc
  refine ⟨hf.1, he.1, hs.1, rfl, ?_, ?_, ?_, rfl, rfl, rfl, rfl⟩
  · rw [mem_warnings]
    simpa using hf.2
  · rw [mem_warnings]
    simpa using he.2
  · rw [mem_warnings]
    simpa using hs.2

/-- **C107.** Names: a name, a directory and a file that are given are kept; otherwise they are built
from the name of the model and the hash. -/
theorem C107_names (env cwd : String) (H : Model → Opts K → String) (s s' : Sim K) (w : List Fd)
    (h : consistent env cwd H s = some (s', w)) :
    ∃ name, s'.name = some name ∧ (∀ n, s.name = some n → name = n) ∧
      (s.name = none →
        name = "sim_" ++ s.model.name ++ "_" ++ H { s.model with xdot := s.model.x } s.opts) ∧
      s'.gen.dir = some (s.gen.dir.getD (cwd ++ "/codegen_" ++ name)) ∧
      s'.gen.json = some (s.gen.json.getD (name ++ ".json")) := by
  obtain ⟨-, -, -, -, -, c, -, rfl, -⟩ := (consistent_some env cwd H s s' w).1 h
  refine ⟨_, rfl, fun n hn => by rw [hn]; rfl, fun hn => by rw [hn]; rfl, rfl, rfl⟩

theorem transfer_again {α : Type*} [DecidableEq α] (d o n : α) :
    (transfer d o (transfer d o n).1).1 = (transfer d o n).1 := by
  unfold transfer
  by_cases h1 : o = d <;> by_cases h2 : n = d <;> simp [h1, h2]

theorem transferSens_again (o : Truth) (n : Bool) (c : Bool × Bool) (h : transferSens o n = some c) :
    ∃ c', transferSens o c.1 = some c' ∧ c'.1 = c.1 := by
  obtain ⟨v, b⟩ := o
  cases v <;> cases b <;> cases n <;> simp [transferSens] at h <;> subst h <;> simp [transferSens]

/-- **C107.** A second call changes nothing, if parameter sensitivities are supported. -/
theorem C107_idempotent_partial (env cwd : String) (H : Model → Opts K → String) (s s' : Sim K)
    (w : List Fd) (h : consistent env cwd H s = some (s', w)) (hs : SensOk s'.gen s.opts.integ) :
    ∃ w', consistent env cwd H s' = some (s', w') := by
  obtain ⟨h1, h2, h3, h4, h5, c, hc, rfl, rfl⟩ := (consistent_some env cwd H s s' w).1 h
  have hc' : ∃ c', transferSens s.opts.sensP c.1 = some c' ∧ c'.1 = c.1 := by
    exact transferSens_again _ _ c hc
  obtain ⟨c', hc1, hc2⟩ := hc'
  refine ⟨_, (consistent_some env cwd H _ _ _).2
    ⟨?_, h2, h3, hs, ?_, c', hc1, ?_, rfl⟩⟩
  · obtain ⟨a1, a2, a3, a4, a5⟩ := h1
    exact ⟨a1, Or.inr rfl, a3, a4, a5⟩
  · cases hi : s.opts.integ <;> rw [hi] at h5 <;> exact h5
  · simp only [Gen.paths, Option.getD_some, transfer_again, hc2]

/-- **C107.** Creating a solver with code generation succeeds only for a supported combination:
parameter sensitivities and Hessians of the generated code are not combined with GNSF, and the
expression of the integrator is given. -/
theorem C107_create_supported (env cwd : String) (H : Model → Opts K → String) (s s' : Sim K)
    (h : create env cwd H s = some s') :
    SensOk s'.gen s'.opts.integ ∧ (s'.gen.hess = true → s'.opts.integ ≠ .gnsf) ∧
      s'.model.Has s'.opts.integ ∧ s'.model.Ok := by
  unfold create at h
  rcases h1 : consistent env cwd H s with _ | ⟨s1, w1⟩
  · rw [h1] at h; cases h
  rw [h1] at h
  simp only [generate] at h
  rcases h2 : consistent env cwd H s1 with _ | ⟨s2, w2⟩
  · rw [h2] at h; cases h
  rw [h2] at h
  simp only at h
  split_ifs at h with hg
  obtain rfl := Option.some.inj h
  obtain ⟨b1, b2, b3, b4, b5, c, hc, hs2, -⟩ := (consistent_some env cwd H s1 s2 w2).1 h2
  obtain ⟨o1, o2, o3, o4, -, -, -, o5, -, -, o6⟩ := C107_options env cwd H s1 s2 w2 h2
  obtain ⟨p1, p2, p3, p4, -, -, -, p5, -, -, p6⟩ := C107_options env cwd H s s1 w1 h1
  refine ⟨fun hp => ?_, fun hh hi => ?_, ?_, ?_⟩
  · rw [o5]
    refine b4 ?_
    rw [o3, p3, p5] at hp
    rw [p3]
    revert hp
    unfold effective
    rcases s.opts.sensP.val <;> rcases s.gen.sensP <;> simp
  · rw [o4] at hh
    rw [o5] at hi hg
    exact hg ⟨hi, hh⟩
  · rw [o5, o6]
    cases hi : s1.opts.integ <;> rw [hi] at b5 <;> exact b5
  · rw [o6]
    obtain ⟨a1, a2, a3, a4, a5⟩ := b1
    exact ⟨a1, Or.inr rfl, a3, a4, a5⟩

/-- **C107.** The integrator of an optimal control problem has the data of its first interval, its
parameters are followed by the global ones, and the description is accepted. -/
theorem C107_from_ocp_partial (env cwd : String) (H : Model → Opts K → String) (o : Ocp K) (ho : o.Ok)
    (i : Integ) (hi : o.integ = some i) (hh : o.model.Has i) (hs : SensOk o.gen i) :
    ∃ s, fromOcp env o = some s ∧ s.opts.T = o.timeSteps.head? ∧
      some s.opts.numStages = o.numStages.head? ∧ some s.opts.numSteps = o.numSteps.head? ∧
      s.opts.integ = i ∧ s.values = o.params ++ o.globals ∧ s.model.p = s.values.length ∧
      ∃ s', consistent env cwd H s = some (s', []) ∧ s'.gen.sensP = o.gen.sensP ∧
        s'.gen.flags = o.gen.flags ∧ s'.gen.expand = o.gen.expand := by
  obtain ⟨h1, h2, h3, h4, h5, h6, h7, h8⟩ := ho
  have hd : ∀ {α : Type _} (l : List α), 0 < l.length → ∃ a, l.head? = some a := fun l hl => by
    cases l with
    | nil => simp at hl
    | cons a l => exact ⟨a, rfl⟩
  obtain ⟨t, ht⟩ := hd o.timeSteps h4
  have hd' : ∀ (l : List ℕ), 0 < l.length → ∃ a, l.head? = some a := fun l hl => by
    cases l with
    | nil => simp at hl
    | cons a l => exact ⟨a, rfl⟩
  obtain ⟨ns, hns⟩ := hd' o.numStages (by omega)
  obtain ⟨nt, hnt⟩ := hd' o.numSteps (by omega)
  let s : Sim K :=
    { model := { o.model with p := o.model.p + o.model.pGlobal, pGlobal := 0 }
      opts :=
        { integ := i, T := some t, numStages := ns, numSteps := nt, sensHess := false, flags := env
          expand := false, sensP := ⟨false, true⟩ }
      gen := o.gen
      shape := [(o.params ++ o.globals).length]
      values := o.params ++ o.globals
      name := none }
  have hp : (o.params ++ o.globals).length = o.model.p + o.model.pGlobal := by
    rw [List.length_append, h2, h3]
  have hT : s.opts.T ≠ none := Option.some_ne_none t
  have hHas : s.model.Has s.opts.integ := by
    change Model.Has _ i
    cases i <;> exact hh
  have hS : transferSens s.opts.sensP s.gen.sensP = some (o.gen.sensP, false) := rfl
  have hcs := (consistent_some env cwd H s _ _).2
    ⟨h1, congrArg some hp, hT, hs, hHas, (o.gen.sensP, false), hS, rfl, rfl⟩
  have hw : warnings (transfer env s.opts.flags s.gen.flags).2
      (transfer false s.opts.expand s.gen.expand).2 (o.gen.sensP, false).2 = [] := by
    simp [s, transfer, warnings]
  rw [hw] at hcs
  refine ⟨s, ?_, ht.symm, hns.symm, hnt.symm, rfl, rfl, hp.symm, _, hcs, rfl, ?_, ?_⟩
  · unfold fromOcp
    rw [hi, ht, hns, hnt]
  · simp [s, transfer, Gen.paths]
  · simp [s, transfer, Gen.paths]

/-- **C107.** The integrator of an optimal control problem is written to the file of the problem
itself. -/
theorem C107_from_ocp_file_false (env cwd : String) (H : Model → Opts K → String) (o : Ocp K)
    (ho : o.Ok) (s s' : Sim K) (w : List Fd) (hf : fromOcp env o = some s)
    (hc : consistent env cwd H s = some (s', w)) :
    s'.gen.file = o.gen.file ∧ o.gen.file ≠ none := by
  obtain ⟨-, -, -, -, -, -, h7, h8⟩ := ho
  obtain ⟨d, hd⟩ := Option.ne_none_iff_exists'.1 h7
  obtain ⟨j, hj⟩ := Option.ne_none_iff_exists'.1 h8
  have hg : s.gen = o.gen := by
    unfold fromOcp at hf
    split at hf
    · rw [← Option.some.inj hf]
    · cases hf
  obtain ⟨name, -, -, -, e1, e2⟩ := C107_names env cwd H s s' w hc
  rw [hg, hd] at e1
  rw [hg, hj] at e2
  have : o.gen.file = some (d, j) := by simp [Gen.file, hd, hj]
  rw [this]
  refine ⟨?_, by simp⟩
  simp only [Gen.file, e1, e2, Option.getD_some]

end

/-! ### Examples and counterexamples -/

/-- A model with two states, one control, one parameter, both kinds of dynamics. -/
def exModel : Model := ⟨"m", 2, 0, 1, 0, 1, 0, 2, 2⟩

/-- Default options. -/
def exGen : Gen := ⟨"-O2", false, false, false, none, none⟩

/-- A description for an integrator, with the deprecated option for parameter sensitivities. -/
def exSim (i : Integ) (p : Truth) : Sim ℕ :=
  ⟨exModel, ⟨i, some 1, 4, 1, false, "-O2", false, p⟩, exGen, [1], [5], none⟩

/-- The hash in the examples. -/
def exH : Model → Opts ℕ → String := fun _ _ => "0"

example : (consistent "-O2" "/w" exH (exSim .erk ⟨true, true⟩)).map
      (fun r => (r.1.gen, r.1.name, r.2))
    = some (⟨"-O2", false, true, false, some "/w/codegen_sim_m_0", some "sim_m_0.json"⟩,
        some "sim_m_0", []) := by decide

example : create "-O2" "/w" exH (exSim .irk ⟨true, true⟩) ≠ none := by decide

/-- **C107.** Parameter sensitivities with GNSF are accepted through the deprecated option, and code
is generated for this combination; a second call raises an exception. -/
theorem C107_sens_gnsf_false : ∃ s s' : Sim ℕ,
    generate "-O2" "/w" exH s = some s' ∧ ¬ SensOk s'.gen s'.opts.integ ∧
    consistent "-O2" "/w" exH s' = none := by
  refine ⟨exSim .gnsf ⟨true, true⟩, _, rfl, ?_, by decide⟩
  intro h
  exact h rfl rfl

/-- **C107.** A value of the deprecated option that its setter accepts is refused later. -/
theorem C107_sens_one_false :
    consistent "-O2" "/w" exH (exSim .erk ⟨true, false⟩) = none ∧
    consistent "-O2" "/w" exH (exSim .erk ⟨true, true⟩) ≠ none := by decide

/-- **C107.** A user who sets an option in one place only is warned of two values: at the second
call. -/
theorem C107_warning_false : ∃ s s' : Sim ℕ, s.gen.sensP = false ∧
    consistent "-O2" "/w" exH s = some (s', []) ∧
    consistent "-O2" "/w" exH s' = some (s', [.sensP]) :=
  ⟨exSim .erk ⟨true, true⟩, _, rfl, rfl, by decide⟩

/-- **C107.** Descriptions with different generated code have the same name, whatever the hash is. -/
theorem C107_name_false : ∃ s t : Sim ℕ, ∀ H : Model → Opts ℕ → String, ∃ s' t' w w',
    consistent "-O2" "/w" H s = some (s', w) ∧ consistent "-O2" "/w" H t = some (t', w') ∧
    s'.name = t'.name ∧ s'.gen.file = t'.gen.file ∧ s'.gen.sensP ≠ t'.gen.sensP :=
  ⟨exSim .erk ⟨false, true⟩, { exSim .erk ⟨false, true⟩ with gen := { exGen with sensP := true } },
    fun _ => ⟨_, _, _, _, rfl, rfl, rfl, rfl, Bool.false_ne_true⟩⟩

/-- **C107.** A matrix of parameter values is accepted if it has the right number of rows. -/
theorem C107_params_false : ∃ s : Sim ℕ, consistent "-O2" "/w" exH s ≠ none ∧
    s.values.length ≠ s.model.p :=
  ⟨{ exSim .erk ⟨false, true⟩ with shape := [1, 3], values := [1, 2, 3] }, by decide, by decide⟩

/-- **C107.** Algebraic variables are accepted for the explicit integrator, which does not support
them (the program exits, sim_erk_integrator.c:87-94). -/
theorem C107_erk_z_false : ∃ s : Sim ℕ, s.opts.integ = .erk ∧ s.model.z ≠ 0 ∧
    create "-O2" "/w" exH s ≠ none :=
  ⟨{ exSim .erk ⟨false, true⟩ with model := { exModel with z := 1, fImpl := 0 } }, rfl, by decide,
    by decide⟩

/-- An optimal control problem with a global parameter. -/
def exOcp : Ocp ℕ :=
  ⟨{ exModel with pGlobal := 2 }, [5], [6, 7], some .irk, [1, 2], [4, 3], [1, 2],
    { exGen with dir := some "/w/codegen_ocp", json := some "ocp.json" }⟩

example : exOcp.Ok := by
  refine ⟨⟨by decide, by decide, by decide, by decide, by decide⟩, by decide, by decide, by decide,
    by decide, by decide, by decide, by decide⟩

example : (fromOcp "-O2" exOcp).map (fun s => (s.values, s.model.p)) = some ([5, 6, 7], 3) := by decide

end Acados.SimDesc
