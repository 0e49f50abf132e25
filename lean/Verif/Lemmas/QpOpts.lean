import Verif.Spec.QpOpts
import Mathlib.Tactic.SplitIfs
import Mathlib.Tactic.Linarith

/-!
# Helper lemmas for the options of the QP solver
-/

namespace Acados.QpOpts

open Acados.Param (Four TolOpts tolJoint tolScaling)

/-! ### Names -/

theorem name_split {f m : Name} (h : moduleOf f = some m) : f = m ++ '_' :: restOf f := by
  unfold moduleOf at h
  split_ifs at h with hm
  simp only [Option.some.injEq] at h
  subst h
  unfold restOf
  induction f with
  | nil => cases hm
  | cons c f ih =>
    by_cases hc : c = '_'
    · subst hc
      simp
    · have hm' : '_' ∈ f := by
        rcases List.mem_cons.mp hm with h | h
        · exact absurd h.symm hc
        · exact h
      have hb : (c != '_') = true := by simpa using hc
      simp only [List.takeWhile_cons, hb, if_true, List.dropWhile_cons, List.cons_append]
      rw [← ih hm']

theorem qp_split {f : Name} (h : moduleOf f = some "qp".toList) : f = "qp_".toList ++ restOf f := by
  have h1 := name_split h
  have h2 : "qp_".toList ++ restOf f = "qp".toList ++ '_' :: restOf f := rfl
  rw [h2]
  exact h1

/-- names of the tolerances at the QP solver -/
def tolNames : List Name := ["tol_stat".toList, "tol_eq".toList, "tol_ineq".toList, "tol_comp".toList]

/-- NLP options passed on to the QP solver -/
def passed : List Name := "tau_min".toList :: tolNames

theorem tol_module {f : Name} (h : f ∈ tolNames) : moduleOf f = some "tol".toList := by
  simp only [tolNames, List.mem_cons, List.not_mem_nil, or_false] at h
  rcases h with h | h | h | h <;> subst h <;> decide

theorem passed_module {f : Name} (h : f ∈ passed) :
    moduleOf f ≠ some "qp".toList ∧ (moduleOf f).getD [] ∉ subModules ∧ moduleOf f ≠ some "cond".toList ∧
      f ≠ "initialize_next_xcond_qp_from_qp_out".toList := by
  simp only [passed, tolNames, List.mem_cons, List.not_mem_nil, or_false] at h
  rcases h with h | h | h | h | h <;> subst h <;> decide

section
variable {K : Type} [Field K] [LinearOrder K]

/-! ### Observations of the options of the QP solver -/

/-- effect of a call at the condensing solver -/
def xUpd {α : Type} (upd : Name → Val K → α → α) (g : Name) (v : Val K) (a : α) : α :=
  if moduleOf g = some "cond".toList then a
  else if g = "initialize_next_xcond_qp_from_qp_out".toList then a else upd g v a

/-- effect of an event -/
def evUpd {α : Type} (upd : Name → Val K → α → α) (mark : α → α) (a : α) : Ev K → α
  | .set f v =>
    if moduleOf f = some "qp".toList then xUpd upd (restOf f) v a else if f ∈ passed then upd f v a else a
  | .start => a
  | .qp _ => mark a

omit [Field K] [LinearOrder K] in
theorem evUpd_set {α : Type} (upd : Name → Val K → α → α) (mark : α → α) (a : α) (f : Name) (v : Val K) :
    evUpd upd mark a (.set f v) =
      if moduleOf f = some "qp".toList then xUpd upd (restOf f) v a else if f ∈ passed then upd f v a else a := rfl

/-- an observation of the QP solver options with its updates -/
structure IsObs (E : Ext) {α : Type} (obs : Qp K → Option α) (upd : Name → Val K → α → α) (mark : α → α) : Prop where
  set : ∀ g v q q', qpSet E g v q = .ok q' → obs q' = (obs q).map (upd g v)
  print : ∀ v a, upd "print_level".toList v a = a
  warm : ∀ v a, upd "warm_start".toList v a = a
  called : ∀ q, obs (qpCalled q) = (obs q).map mark

variable {E : Ext} {α : Type} {obs : Qp K → Option α} {upd : Name → Val K → α → α} {mark : α → α}

theorem ok_bind {ε β γ : Type} {x : Except ε β} {f : β → Except ε γ} {c : γ} (h : x.bind f = .ok c) :
    ∃ b, x = .ok b ∧ f b = .ok c := by
  cases x with
  | error e => cases h
  | ok b => exact ⟨b, rfl, h⟩

theorem ok_map {ε β γ : Type} {x : Except ε β} {f : β → γ} {c : γ} (h : x.map f = .ok c) :
    ∃ b, x = .ok b ∧ f b = c := by
  cases x with
  | error e => cases h
  | ok b => exact ⟨b, rfl, by simpa [Except.map] using h⟩

omit [Field K] [LinearOrder K] in
theorem asDbl_ok {v : Val K} {x : K} (h : v.asDbl = .ok x) : v = .dbl x := by
  cases v <;> simp_all [Val.asDbl]

omit [Field K] [LinearOrder K] in
theorem asInt_ok {v : Val K} {x : Int} (h : v.asInt = .ok x) : v = .int x := by
  cases v <;> simp_all [Val.asInt]

omit [Field K] [LinearOrder K] in
theorem asStr_ok {v : Val K} {x : Name} (h : v.asStr = .ok x) : v = .str x := by
  cases v <;> simp_all [Val.asStr]

/-- what a passed-on option leaves alone -/
structure SameNlp (s s' : Nlp K) : Prop where
  tol : s'.tol = s.tol
  tolMin : s'.tolMin = s.tolMin
  reduction : s'.reduction = s.reduction
  safety : s'.safety = s.safety
  strategy : s'.strategy = s.strategy
  tauMin : s'.tauMin = s.tauMin
  printLevel : s'.printLevel = s.printLevel
  qpIterMax : s'.qpIterMax = s.qpIterMax
  qpWarm : s'.qpWarm = s.qpWarm
  warmFirst : s'.warmFirst = s.warmFirst

omit [Field K] [LinearOrder K] in
theorem SameNlp.rfl {s : Nlp K} : SameNlp s s := ⟨.refl _, .refl _, .refl _, .refl _, .refl _, .refl _, .refl _, .refl _, .refl _, .refl _⟩

omit [Field K] [LinearOrder K] in
theorem SameNlp.trans {s s' s'' : Nlp K} (h : SameNlp s s') (h' : SameNlp s' s'') : SameNlp s s'' :=
  ⟨h'.tol.trans h.tol, h'.tolMin.trans h.tolMin, h'.reduction.trans h.reduction, h'.safety.trans h.safety,
    h'.strategy.trans h.strategy, h'.tauMin.trans h.tauMin, h'.printLevel.trans h.printLevel,
    h'.qpIterMax.trans h.qpIterMax, h'.qpWarm.trans h.qpWarm, h'.warmFirst.trans h.warmFirst⟩

theorem direct_same {g : Name} {v : Val K} {s s' : Nlp K} (h : s.direct E g v = .ok s') : SameNlp s s' := by
  unfold Nlp.direct at h
  obtain ⟨x, -, rfl⟩ := ok_map h
  exact ⟨rfl, rfl, rfl, rfl, rfl, rfl, rfl, rfl, rfl, rfl⟩

theorem direct_obs (ho : IsObs E obs upd mark) {g : Name} {v : Val K} {s s' : Nlp K} (h : s.direct E g v = .ok s') :
    obs s'.x.qp = (obs s.x.qp).map (xUpd upd g v) := by
  unfold Nlp.direct at h
  obtain ⟨x, hx, rfl⟩ := ok_map h
  unfold xcondSet at hx
  unfold xUpd
  split_ifs at hx with h1 h2 h3
  · injection hx with hx
    subst hx
    simp [h1]
  · obtain ⟨n, -, hx⟩ := ok_bind hx
    injection hx with hx
    subst hx
    simp [h1, h3]
  · obtain ⟨q, hq, rfl⟩ := ok_map hx
    simp only [h1, h3, if_false]
    exact ho.set _ _ _ _ hq

theorem direct_obs_plain (ho : IsObs E obs upd mark) {g : Name} {v : Val K} {s s' : Nlp K}
    (h : s.direct E g v = .ok s') (hg : g ∈ passed ∨ g = "print_level".toList ∨ g = "warm_start".toList) :
    obs s'.x.qp = (obs s.x.qp).map (upd g v) := by
  rw [direct_obs ho h]
  have h1 : moduleOf g ≠ some "cond".toList ∧ g ≠ "initialize_next_xcond_qp_from_qp_out".toList := by
    rcases hg with hg | hg | hg
    · exact (passed_module hg).2.2
    · subst hg; decide
    · subst hg; decide
  have h2 : xUpd upd g v = upd g v := by
    funext a
    simp only [xUpd, h1.1, h1.2, if_false]
  rw [h2]

theorem ite_cases {β : Type} {p : Prop} [Decidable p] {a b c : β} (h : (if p then a else b) = c) :
    (p ∧ a = c) ∨ (¬p ∧ b = c) := by
  by_cases hp : p
  · exact .inl ⟨hp, by rwa [if_pos hp] at h⟩
  · exact .inr ⟨hp, by rwa [if_neg hp] at h⟩

/-- outcome of an NLP option: passed on to the QP solver after a change of the NLP options, or kept -/
theorem nlpField_x {f : Name} {v : Val K} {s s' : Nlp K} (h : nlpField E f v s = .ok s') :
    (f ∈ passed ∧ ∃ s1 : Nlp K, s1.direct E f v = .ok s' ∧ s1.x = s.x) ∨ (f ∉ passed ∧ s'.x = s.x) := by
  have hlast : ∀ {f : Name}, ¬ f = "tau_min".toList → ¬ f = "tol_stat".toList → ¬ f = "tol_eq".toList →
      ¬ f = "tol_ineq".toList → ¬ f = "tol_comp".toList → f ∉ passed := by
    intro f h1 h2 h3 h4 h5 hf
    simp only [passed, tolNames, List.mem_cons, List.not_mem_nil, or_false] at hf
    rcases hf with hf | hf | hf | hf | hf
    exacts [h1 hf, h2 hf, h3 hf, h4 hf, h5 hf]
  unfold nlpField at h
  rcases ite_cases h with ⟨h1, h⟩ | ⟨h1, h⟩
  · obtain ⟨x, -, h⟩ := ok_bind h; injection h with h; subst h; subst h1; exact .inr ⟨by decide, rfl⟩
  rcases ite_cases h with ⟨h2, h⟩ | ⟨h2, h⟩
  · obtain ⟨x, -, h⟩ := ok_bind h; injection h with h; subst h; subst h2; exact .inr ⟨by decide, rfl⟩
  rcases ite_cases h with ⟨h3, h⟩ | ⟨h3, h⟩
  · obtain ⟨x, -, h⟩ := ok_bind h; injection h with h; subst h; subst h3; exact .inr ⟨by decide, rfl⟩
  rcases ite_cases h with ⟨h4, h⟩ | ⟨h4, h⟩
  · obtain ⟨x, -, h⟩ := ok_bind h; injection h with h; subst h; subst h4; exact .inr ⟨by decide, rfl⟩
  rcases ite_cases h with ⟨h5, h⟩ | ⟨h5, h⟩
  · obtain ⟨x, -, h⟩ := ok_bind h; injection h with h; subst h; subst h5; exact .inr ⟨by decide, rfl⟩
  rcases ite_cases h with ⟨h6, h⟩ | ⟨h6, h⟩
  · obtain ⟨x, -, h⟩ := ok_bind h; injection h with h; subst h; subst h6; exact .inr ⟨by decide, rfl⟩
  rcases ite_cases h with ⟨h7, h⟩ | ⟨h7, h⟩
  · obtain ⟨x, -, h⟩ := ok_bind h; injection h with h; subst h; subst h7; exact .inr ⟨by decide, rfl⟩
  rcases ite_cases h with ⟨h8, h⟩ | ⟨h8, h⟩
  · obtain ⟨x, -, h⟩ := ok_bind h; subst h8; exact .inl ⟨by decide, _, h, rfl⟩
  rcases ite_cases h with ⟨h9, h⟩ | ⟨h9, h⟩
  · obtain ⟨x, -, h⟩ := ok_bind h
    rcases ite_cases h with ⟨-, h⟩ | ⟨-, h⟩
    · cases h
    · injection h with h; subst h; subst h9; exact .inr ⟨by decide, rfl⟩
  rcases ite_cases h with ⟨h10, h⟩ | ⟨h10, h⟩
  · obtain ⟨x, -, h⟩ := ok_bind h; subst h10; exact .inl ⟨by decide, _, h, rfl⟩
  rcases ite_cases h with ⟨h11, h⟩ | ⟨h11, h⟩
  · obtain ⟨x, -, h⟩ := ok_bind h; subst h11; exact .inl ⟨by decide, _, h, rfl⟩
  rcases ite_cases h with ⟨h12, h⟩ | ⟨h12, h⟩
  · obtain ⟨x, -, h⟩ := ok_bind h; subst h12; exact .inl ⟨by decide, _, h, rfl⟩
  rcases ite_cases h with ⟨h13, h⟩ | ⟨h13, h⟩
  · obtain ⟨x, -, h⟩ := ok_bind h; subst h13; exact .inl ⟨by decide, _, h, rfl⟩
  rcases ite_cases h with ⟨h14, h⟩ | ⟨h14, h⟩
  · obtain ⟨x, -, h⟩ := ok_bind h; injection h with h; subst h; subst h14; exact .inr ⟨by decide, rfl⟩
  rcases ite_cases h with ⟨-, h⟩ | ⟨-, h⟩
  · injection h with h; subst h; exact .inr ⟨hlast h8 h10 h11 h12 h13, rfl⟩
  · cases h

/-- values of the NLP options after an NLP option call -/
theorem nlpField_vals {f : Name} {v : Val K} {s s' : Nlp K} (h : nlpField E f v s = .ok s') :
    (f = "nlp_qp_tol_strategy".toList ∧ v = .int s'.strategy ∨
      f ≠ "nlp_qp_tol_strategy".toList ∧ s'.strategy = s.strategy) ∧
    (f = "tol_stat".toList ∧ v = .dbl s'.tol.stat ∨ f ≠ "tol_stat".toList ∧ s'.tol.stat = s.tol.stat) ∧
    (f = "tol_eq".toList ∧ v = .dbl s'.tol.eq ∨ f ≠ "tol_eq".toList ∧ s'.tol.eq = s.tol.eq) ∧
    (f = "tol_ineq".toList ∧ v = .dbl s'.tol.ineq ∨ f ≠ "tol_ineq".toList ∧ s'.tol.ineq = s.tol.ineq) ∧
    (f = "tol_comp".toList ∧ v = .dbl s'.tol.comp ∨ f ≠ "tol_comp".toList ∧ s'.tol.comp = s.tol.comp) ∧
    s'.qpWarm = s.qpWarm ∧ s'.qpIterMax = s.qpIterMax := by
  unfold nlpField at h
  rcases ite_cases h with ⟨h1, h⟩ | ⟨h1, h⟩
  · obtain ⟨x, hx, h⟩ := ok_bind h; injection h with h; subst h; subst h1
    exact ⟨.inl ⟨rfl, asInt_ok hx⟩, .inr ⟨by decide, rfl⟩, .inr ⟨by decide, rfl⟩, .inr ⟨by decide, rfl⟩,
      .inr ⟨by decide, rfl⟩, rfl, rfl⟩
  rcases ite_cases h with ⟨h2, h⟩ | ⟨h2, h⟩
  · obtain ⟨x, hx, h⟩ := ok_bind h; injection h with h; subst h; subst h2
    exact ⟨.inr ⟨h1, rfl⟩, .inr ⟨by decide, rfl⟩, .inr ⟨by decide, rfl⟩, .inr ⟨by decide, rfl⟩,
      .inr ⟨by decide, rfl⟩, rfl, rfl⟩
  rcases ite_cases h with ⟨h3, h⟩ | ⟨h3, h⟩
  · obtain ⟨x, hx, h⟩ := ok_bind h; injection h with h; subst h; subst h3
    exact ⟨.inr ⟨h1, rfl⟩, .inr ⟨by decide, rfl⟩, .inr ⟨by decide, rfl⟩, .inr ⟨by decide, rfl⟩,
      .inr ⟨by decide, rfl⟩, rfl, rfl⟩
  rcases ite_cases h with ⟨h4, h⟩ | ⟨h4, h⟩
  · obtain ⟨x, hx, h⟩ := ok_bind h; injection h with h; subst h; subst h4
    exact ⟨.inr ⟨h1, rfl⟩, .inr ⟨by decide, rfl⟩, .inr ⟨by decide, rfl⟩, .inr ⟨by decide, rfl⟩,
      .inr ⟨by decide, rfl⟩, rfl, rfl⟩
  rcases ite_cases h with ⟨h5, h⟩ | ⟨h5, h⟩
  · obtain ⟨x, hx, h⟩ := ok_bind h; injection h with h; subst h; subst h5
    exact ⟨.inr ⟨h1, rfl⟩, .inr ⟨by decide, rfl⟩, .inr ⟨by decide, rfl⟩, .inr ⟨by decide, rfl⟩,
      .inr ⟨by decide, rfl⟩, rfl, rfl⟩
  rcases ite_cases h with ⟨h6, h⟩ | ⟨h6, h⟩
  · obtain ⟨x, hx, h⟩ := ok_bind h; injection h with h; subst h; subst h6
    exact ⟨.inr ⟨h1, rfl⟩, .inr ⟨by decide, rfl⟩, .inr ⟨by decide, rfl⟩, .inr ⟨by decide, rfl⟩,
      .inr ⟨by decide, rfl⟩, rfl, rfl⟩
  rcases ite_cases h with ⟨h7, h⟩ | ⟨h7, h⟩
  · obtain ⟨x, hx, h⟩ := ok_bind h; injection h with h; subst h; subst h7
    exact ⟨.inr ⟨h1, rfl⟩, .inr ⟨by decide, rfl⟩, .inr ⟨by decide, rfl⟩, .inr ⟨by decide, rfl⟩,
      .inr ⟨by decide, rfl⟩, rfl, rfl⟩
  rcases ite_cases h with ⟨h8, h⟩ | ⟨h8, h⟩
  · obtain ⟨x, hx, h⟩ := ok_bind h
    have hs := direct_same h
    subst h8
    exact ⟨.inr ⟨h1, hs.strategy⟩, .inr ⟨by decide, by rw [hs.tol]⟩, .inr ⟨by decide, by rw [hs.tol]⟩,
      .inr ⟨by decide, by rw [hs.tol]⟩, .inr ⟨by decide, by rw [hs.tol]⟩, hs.qpWarm, hs.qpIterMax⟩
  rcases ite_cases h with ⟨h9, h⟩ | ⟨h9, h⟩
  · obtain ⟨x, hx, h⟩ := ok_bind h
    rcases ite_cases h with ⟨-, h⟩ | ⟨-, h⟩
    · cases h
    · injection h with h; subst h; subst h9
      exact ⟨.inr ⟨h1, rfl⟩, .inr ⟨by decide, rfl⟩, .inr ⟨by decide, rfl⟩, .inr ⟨by decide, rfl⟩,
        .inr ⟨by decide, rfl⟩, rfl, rfl⟩
  rcases ite_cases h with ⟨h10, h⟩ | ⟨h10, h⟩
  · obtain ⟨x, hx, h⟩ := ok_bind h
    have hs := direct_same h
    subst h10
    exact ⟨.inr ⟨h1, hs.strategy⟩, .inl ⟨rfl, by rw [hs.tol]; exact asDbl_ok hx⟩, .inr ⟨by decide, by rw [hs.tol]⟩,
      .inr ⟨by decide, by rw [hs.tol]⟩, .inr ⟨by decide, by rw [hs.tol]⟩, hs.qpWarm, hs.qpIterMax⟩
  rcases ite_cases h with ⟨h11, h⟩ | ⟨h11, h⟩
  · obtain ⟨x, hx, h⟩ := ok_bind h
    have hs := direct_same h
    subst h11
    exact ⟨.inr ⟨h1, hs.strategy⟩, .inr ⟨by decide, by rw [hs.tol]⟩, .inl ⟨rfl, by rw [hs.tol]; exact asDbl_ok hx⟩,
      .inr ⟨by decide, by rw [hs.tol]⟩, .inr ⟨by decide, by rw [hs.tol]⟩, hs.qpWarm, hs.qpIterMax⟩
  rcases ite_cases h with ⟨h12, h⟩ | ⟨h12, h⟩
  · obtain ⟨x, hx, h⟩ := ok_bind h
    have hs := direct_same h
    subst h12
    exact ⟨.inr ⟨h1, hs.strategy⟩, .inr ⟨by decide, by rw [hs.tol]⟩, .inr ⟨by decide, by rw [hs.tol]⟩,
      .inl ⟨rfl, by rw [hs.tol]; exact asDbl_ok hx⟩, .inr ⟨by decide, by rw [hs.tol]⟩, hs.qpWarm, hs.qpIterMax⟩
  rcases ite_cases h with ⟨h13, h⟩ | ⟨h13, h⟩
  · obtain ⟨x, hx, h⟩ := ok_bind h
    have hs := direct_same h
    subst h13
    exact ⟨.inr ⟨h1, hs.strategy⟩, .inr ⟨by decide, by rw [hs.tol]⟩, .inr ⟨by decide, by rw [hs.tol]⟩,
      .inr ⟨by decide, by rw [hs.tol]⟩, .inl ⟨rfl, by rw [hs.tol]; exact asDbl_ok hx⟩, hs.qpWarm, hs.qpIterMax⟩
  rcases ite_cases h with ⟨h14, h⟩ | ⟨h14, h⟩
  · obtain ⟨x, hx, h⟩ := ok_bind h; injection h with h; subst h; subst h14
    exact ⟨.inr ⟨h1, rfl⟩, .inr ⟨by decide, rfl⟩, .inr ⟨by decide, rfl⟩, .inr ⟨by decide, rfl⟩,
      .inr ⟨by decide, rfl⟩, rfl, rfl⟩
  rcases ite_cases h with ⟨-, h⟩ | ⟨-, h⟩
  · injection h with h; subst h
    exact ⟨.inr ⟨h1, rfl⟩, .inr ⟨h10, rfl⟩, .inr ⟨h11, rfl⟩, .inr ⟨h12, rfl⟩, .inr ⟨h13, rfl⟩, rfl, rfl⟩
  · cases h

/-- outcome of an option call -/
theorem nlpSet_cases {f : Name} {v : Val K} {s s' : Nlp K} (h : nlpSet E f v s = .ok s') :
    (moduleOf f = some "qp".toList ∧ ∃ s1 : Nlp K, s.direct E (restOf f) v = .ok s1 ∧
        (f = "qp_iter_max".toList ∧ (∃ n, v = .int n ∧ s' = { s1 with qpIterMax := some n }) ∨
          f = "qp_warm_start".toList ∧ (∃ n, v = .int n ∧ s' = { s1 with qpWarm := n }) ∨
          f ≠ "qp_iter_max".toList ∧ f ≠ "qp_warm_start".toList ∧ s' = s1)) ∨
    (moduleOf f ≠ some "qp".toList ∧ (moduleOf f).getD [] ∈ subModules ∧ s' = s) ∨
    (moduleOf f ≠ some "qp".toList ∧ (moduleOf f).getD [] ∉ subModules ∧ nlpField E f v s = .ok s') := by
  unfold nlpSet at h
  rcases ite_cases h with ⟨h1, h⟩ | ⟨h1, h⟩
  · obtain ⟨s1, hs1, h⟩ := ok_bind h
    refine .inl ⟨h1, s1, hs1, ?_⟩
    rcases ite_cases h with ⟨h2, h⟩ | ⟨h2, h⟩
    · obtain ⟨n, hn, h⟩ := ok_bind h
      injection h with h
      exact .inl ⟨h2, n, asInt_ok hn, h.symm⟩
    rcases ite_cases h with ⟨h3, h⟩ | ⟨h3, h⟩
    · obtain ⟨n, hn, h⟩ := ok_bind h
      injection h with h
      exact .inr (.inl ⟨h3, n, asInt_ok hn, h.symm⟩)
    · injection h with h
      exact .inr (.inr ⟨h2, h3, h.symm⟩)
  rcases ite_cases h with ⟨h2, h⟩ | ⟨h2, h⟩
  · rcases ite_cases h with ⟨-, h⟩ | ⟨-, h⟩
    · injection h with h
      exact .inr (.inl ⟨h1, h2, h.symm⟩)
    · cases h
  · exact .inr (.inr ⟨h1, h2, h⟩)

theorem nlpSet_obs (ho : IsObs E obs upd mark) {f : Name} {v : Val K} {s s' : Nlp K}
    (h : nlpSet E f v s = .ok s') :
    obs s'.x.qp = (obs s.x.qp).map (fun a => evUpd upd mark a (.set f v)) := by
  rcases nlpSet_cases h with ⟨h1, s1, hs1, h2⟩ | ⟨h1, h2, rfl⟩ | ⟨h1, h2, h3⟩
  · have hx : s'.x = s1.x := by
      rcases h2 with ⟨-, n, -, rfl⟩ | ⟨-, n, -, rfl⟩ | ⟨-, -, rfl⟩ <;> rfl
    have he : (fun a => evUpd upd mark a (.set f v)) = xUpd upd (restOf f) v := by
      funext a
      rw [evUpd_set, if_pos h1]
    rw [hx, he]
    exact direct_obs ho hs1
  · have he : (fun a => evUpd upd mark a (.set f v)) = id := by
      funext a
      rw [evUpd_set, if_neg h1, if_neg]
      · rfl
      · intro hp
        exact (passed_module hp).2.1 h2
    rw [he]
    simp
  · rcases nlpField_x h3 with ⟨hp, s1, hd, hx⟩ | ⟨hp, hx⟩
    · have he : (fun a => evUpd upd mark a (.set f v)) = upd f v := by
        funext a
        rw [evUpd_set, if_neg h1, if_pos hp]
      rw [he, direct_obs_plain ho hd (.inl hp), hx]
    · have he : (fun a => evUpd upd mark a (.set f v)) = id := by
        funext a
        rw [evUpd_set, if_neg h1, if_neg hp]
        rfl
      rw [he, hx]
      simp

theorem nlpSet_strategy {f : Name} {v : Val K} {s s' : Nlp K} (h : nlpSet E f v s = .ok s')
    (h0 : s.strategy = 0) (hf : f = "nlp_qp_tol_strategy".toList → v = .int 0) : s'.strategy = 0 := by
  rcases nlpSet_cases h with ⟨h1, s1, hs1, h2⟩ | ⟨h1, h2, rfl⟩ | ⟨h1, h2, h3⟩
  · have := (direct_same hs1).strategy
    rcases h2 with ⟨-, n, -, rfl⟩ | ⟨-, n, -, rfl⟩ | ⟨-, -, rfl⟩ <;> exact this.trans h0
  · exact h0
  · rcases (nlpField_vals h3).1 with ⟨ha, hb⟩ | ⟨ha, hb⟩
    · have := hf ha
      rw [hb] at this
      injection this
    · exact hb.trans h0

/-- options when the QP solver is called, fixed tolerances -/
theorem qpUsed_fixed (ho : IsObs E obs upd mark) {d : QpData K} {s s' : Nlp K} (h : qpUsed E d s = .ok s')
    (h0 : s.strategy = 0) : obs s'.x.qp = obs s.x.qp ∧ SameNlp s s' := by
  unfold qpUsed at h
  obtain ⟨s1, hs1, h⟩ := ok_bind h
  unfold coldFirst at hs1
  unfold adaptTols at h
  have h1 : obs s1.x.qp = obs s.x.qp ∧ SameNlp s s1 := by
    rcases ite_cases hs1 with ⟨-, hs1⟩ | ⟨-, hs1⟩
    · refine ⟨?_, direct_same hs1⟩
      rw [direct_obs_plain ho hs1 (.inr (.inr rfl))]
      have : upd "warm_start".toList (.int 0) = id := by
        funext a
        exact ho.warm _ a
      rw [this]
      simp
    · injection hs1 with hs1
      subst hs1
      exact ⟨rfl, SameNlp.rfl⟩
  have h2 : s1.strategy = 0 := h1.2.strategy.trans h0
  rcases ite_cases h with ⟨h3, h⟩ | ⟨-, h⟩
  · rw [h2] at h3
    exact absurd h3 (by decide)
  rcases ite_cases h with ⟨h3, h⟩ | ⟨-, h⟩
  · rw [h2] at h3
    exact absurd h3 (by decide)
  injection h with h
  subst h
  exact h1

theorem step_obs (ho : IsObs E obs upd mark) {e : Ev K} {s s' : Nlp K} (h : step E e s = .ok s')
    (h0 : s.strategy = 0) (hf : ∀ v : Val K, e = .set "nlp_qp_tol_strategy".toList v → v = .int 0) :
    obs s'.x.qp = (obs s.x.qp).map (fun a => evUpd upd mark a e) ∧ s'.strategy = 0 := by
  cases e with
  | set f v => exact ⟨nlpSet_obs ho h, nlpSet_strategy h h0 (fun hn => hf v (by rw [hn]))⟩
  | start =>
    have hd : s.direct E "print_level".toList (.int (if 2 < s.printLevel then 1 else 0)) = .ok s' := h
    refine ⟨?_, (direct_same hd).strategy.trans h0⟩
    rw [direct_obs_plain ho hd (.inr (.inl rfl))]
    congr 1
    funext a
    exact ho.print _ a
  | qp d =>
    have hd : qpStep E d s = .ok s' := h
    unfold qpStep at hd
    obtain ⟨s1, hs1, hd⟩ := ok_bind hd
    have h1 := qpUsed_fixed ho hs1 h0
    have he : (fun a => evUpd upd mark a (.qp d)) = mark := rfl
    rw [he]
    rcases ite_cases hd with ⟨-, hd⟩ | ⟨-, hd⟩
    · refine ⟨?_, (direct_same hd).strategy.trans (h1.2.strategy.trans h0)⟩
      rw [direct_obs_plain ho hd (.inr (.inr rfl))]
      have : upd "warm_start".toList (.int s1.qpWarm) = id := by
        funext a
        exact ho.warm _ a
      rw [this]
      simp only [Option.map_id, id]
      rw [ho.called, h1.1]
    · injection hd with hd
      subst hd
      refine ⟨?_, h1.2.strategy.trans h0⟩
      show obs (qpCalled s1.x.qp) = _
      rw [ho.called, h1.1]

theorem run_obs (ho : IsObs E obs upd mark) : ∀ (h : List (Ev K)) {s s' : Nlp K}, run E h s = .ok s' →
    s.strategy = 0 → Spec.Fixed h →
    obs s'.x.qp = (obs s.x.qp).map (fun a => h.foldl (evUpd upd mark) a) ∧ s'.strategy = 0
  | [], s, s', h, h0, _ => by
    have h1 : Except.ok s = (Except.ok s' : Except Err (Nlp K)) := h
    injection h1 with h1
    subst h1
    exact ⟨by simp, h0⟩
  | e :: es, s, s', h, h0, hf => by
    obtain ⟨s1, hs1, h⟩ := ok_bind (show (step E e s).bind (fun s => run E es s) = .ok s' from h)
    have h1 := step_obs ho hs1 h0 (fun v hv => hf v (by rw [hv]; exact List.mem_cons_self))
    have h2 := run_obs ho es h h1.2 (fun v hv => hf v (List.mem_cons_of_mem _ hv))
    refine ⟨?_, h2.2⟩
    rw [h2.1, h1.1, Option.map_map]
    rfl

theorem default_obs (ho : IsObs E obs upd mark) {q : Qp K} {s : Nlp K} (h : nlpDefault E q = .ok s) :
    obs s.x.qp = (obs q).map (fun a => upd "tol_comp".toList (.dbl (1 / 10 ^ 8)) (upd "tol_ineq".toList (.dbl (1 / 10 ^ 8))
      (upd "tol_eq".toList (.dbl (1 / 10 ^ 8)) (upd "tol_stat".toList (.dbl (1 / 10 ^ 8)) a)))) ∧ s.strategy = 0 ∧
      s.tol = ⟨1 / 10 ^ 8, 1 / 10 ^ 8, 1 / 10 ^ 8, 1 / 10 ^ 8⟩ ∧ s.qpWarm = 0 ∧ s.warmFirst = false := by
  unfold nlpDefault at h
  obtain ⟨s1, h1, h⟩ := ok_bind h
  obtain ⟨s2, h2, h⟩ := ok_bind h
  obtain ⟨s3, h3, h⟩ := ok_bind h
  have hs := (((direct_same h1).trans (direct_same h2)).trans (direct_same h3)).trans (direct_same h)
  refine ⟨?_, hs.strategy, hs.tol, hs.qpWarm, hs.warmFirst⟩
  rw [direct_obs_plain ho h (.inl (by decide)), direct_obs_plain ho h3 (.inl (by decide)),
    direct_obs_plain ho h2 (.inl (by decide)), direct_obs_plain ho h1 (.inl (by decide))]
  simp only [Option.map_map]
  rfl

/-! ### Registers -/

/-- update of a register: names of its setters, names that reset it -/
def regUpd (op : α → K → α) (gs rs : List Name) (r : α) (g : Name) (v : Val K) (a : α) : α :=
  if g ∈ rs then r
  else if g ∈ gs then (match v with
    | .dbl x => op a x
    | _ => a)
  else a

/-- its specification over the user's names -/
def regAfter (op : α → K → α) (names resets : List Name) (r : α) (a : α) : Ev K → α
  | .set f (.dbl x) => if f ∈ names then op a x else if f ∈ resets then r else a
  | .set f _ => if f ∈ resets then r else a
  | _ => a

/-- the user's name for an option of the QP solver -/
def qpName (g : Name) : Name := "qp_".toList ++ g

theorem qpName_inj {g g' : Name} (h : qpName g = qpName g') : g = g' := List.append_cancel_left h

theorem qpName_module (g : Name) : moduleOf (qpName g) = some "qp".toList := by
  unfold moduleOf qpName
  have h1 : '_' ∈ "qp_".toList ++ g := List.mem_append_left _ (by decide)
  rw [if_pos h1]
  have h2 : "qp_".toList = ['q', 'p', '_'] := by decide
  have h3 : "qp".toList = ['q', 'p'] := by decide
  rw [h2, h3]
  simp

/-- the register seen from the user's side; HPIPM's mode is the only reset -/
theorem evUpd_reg (op : α → K → α) {gs rs : List Name} (r : α) (hg : ∀ g ∈ gs, g ∈ tolNames)
    (hr : rs = [] ∨ rs = ["hpipm_mode".toList]) (a : α) (e : Ev K) :
    evUpd (regUpd op gs rs r) id a e = regAfter op (gs ++ gs.map qpName) (rs.map qpName) r a e := by
  cases e with
  | start => rfl
  | qp d => rfl
  | set f v =>
    have hgr : ∀ g ∈ gs, g ∉ rs := by
      intro g hgg hgr
      rcases hr with rfl | rfl
      · cases hgr
      · rw [List.mem_singleton] at hgr
        have := tol_module (hg g hgg)
        rw [hgr] at this
        exact absurd this (by decide)
    by_cases hm : moduleOf f = some "qp".toList
    · have hq : f = qpName (restOf f) := qp_split hm
      have hfg : f ∉ gs := by
        intro hf
        have := tol_module (hg f hf)
        rw [hm] at this
        exact absurd this (by decide)
      have hng : f ∈ gs ++ gs.map qpName ↔ restOf f ∈ gs := by
        rw [List.mem_append]
        constructor
        · rintro (h | h)
          · exact absurd h hfg
          · obtain ⟨g, hgg, hge⟩ := List.mem_map.mp h
            rw [hq] at hge
            rw [← qpName_inj hge]
            exact hgg
        · intro h
          right
          exact List.mem_map.mpr ⟨_, h, hq.symm⟩
      have hnr : f ∈ rs.map qpName ↔ restOf f ∈ rs := by
        constructor
        · intro h
          obtain ⟨g, hgg, hge⟩ := List.mem_map.mp h
          rw [hq] at hge
          rw [← qpName_inj hge]
          exact hgg
        · intro h
          exact List.mem_map.mpr ⟨_, h, hq.symm⟩
      have hx : xUpd (regUpd op gs rs r) (restOf f) v a = regUpd op gs rs r (restOf f) v a := by
        unfold xUpd
        have hnone : restOf f ∉ gs → restOf f ∉ rs → a = regUpd op gs rs r (restOf f) v a := by
          intro h1 h2
          unfold regUpd
          rw [if_neg h2, if_neg h1]
        split_ifs with h1 h2
        · refine hnone (fun h => ?_) (fun h => ?_)
          · have := tol_module (hg _ h)
            rw [h1] at this
            exact absurd this (by decide)
          · rcases hr with rfl | rfl
            · cases h
            · rw [List.mem_singleton] at h
              rw [h] at h1
              exact absurd h1 (by decide)
        · refine hnone (fun h => ?_) (fun h => ?_)
          · have := tol_module (hg _ h)
            rw [h2] at this
            exact absurd this (by decide)
          · rcases hr with rfl | rfl
            · cases h
            · rw [List.mem_singleton, h2] at h
              exact absurd h (by decide)
        · rfl
      rw [evUpd_set, if_pos hm, hx]
      unfold regUpd regAfter
      cases v with
      | dbl x =>
        simp only [hng, hnr]
        by_cases h1 : restOf f ∈ gs
        · rw [if_neg (hgr _ h1), if_pos h1, if_pos h1]
        · rw [if_neg h1, if_neg h1]
      | int n =>
        simp only [hnr]
        by_cases h1 : restOf f ∈ gs
        · rw [if_pos h1]
        · rw [if_neg h1]
      | str n =>
        simp only [hnr]
        by_cases h1 : restOf f ∈ gs
        · rw [if_pos h1]
        · rw [if_neg h1]
    · have hfq : ∀ {l : List Name}, f ∉ l.map qpName := by
        intro l h
        obtain ⟨g, -, hge⟩ := List.mem_map.mp h
        rw [← hge] at hm
        exact hm (qpName_module g)
      have hng : f ∈ gs ++ gs.map qpName ↔ f ∈ gs := by
        rw [List.mem_append]
        exact ⟨fun h => h.resolve_right hfq, .inl⟩
      rw [evUpd_set, if_neg hm]
      by_cases hp : f ∈ passed
      · rw [if_pos hp]
        have hfr : f ∉ rs := by
          intro h
          rcases hr with rfl | rfl
          · cases h
          · rw [List.mem_singleton] at h
            rw [h] at hp
            exact absurd hp (by decide)
        unfold regUpd regAfter
        rw [if_neg hfr]
        cases v with
        | dbl x => simp only [hng, if_neg hfq]
        | int n => simp only [if_neg hfq, ite_self]
        | str n => simp only [if_neg hfq, ite_self]
      · rw [if_neg hp]
        have hfg : f ∉ gs := fun h => hp (List.mem_cons_of_mem _ (hg f h))
        unfold regAfter
        cases v with
        | dbl x => simp only [hng, if_neg hfg, if_neg hfq]
        | int n => simp only [if_neg hfq]
        | str n => simp only [if_neg hfq]

theorem fold_reg (op : α → K → α) {gs rs : List Name} (r : α) (hg : ∀ g ∈ gs, g ∈ tolNames)
    (hr : rs = [] ∨ rs = ["hpipm_mode".toList]) (h : List (Ev K)) (a : α) :
    h.foldl (evUpd (regUpd op gs rs r) id) a = h.foldl (regAfter op (gs ++ gs.map qpName) (rs.map qpName) r) a := by
  congr 1
  funext a e
  exact evUpd_reg op r hg hr a e

end

end Acados.QpOpts
