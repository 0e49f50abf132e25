import Verif.Model.SensOpts
import Mathlib.Tactic.SplitIfs
import Mathlib.Tactic.Tauto
import Mathlib.Tactic.ByContra

/-!
C109: options for parametric sensitivities of an OCP.
-/

namespace Acados.SensOpts

theorem sensCheck_iff (o : Ocp) : sensCheck o = true ↔ o.Supported := by
  have hc : ((costsToCheck o).any (fun c => decide (c ≠ .external ∧ c ≠ .linearLs)) = false) ↔
      ∀ c ∈ o.costs, c = .external ∨ c = .linearLs := by
    unfold costsToCheck Ocp.costs
    split_ifs
    · simp only [List.any_eq_false, List.mem_cons, List.not_mem_nil, or_false, decide_eq_true_eq]
      constructor
      · intro h c hcm
        have := h c (by tauto)
        tauto
      · intro h c hcm
        have := h c (by tauto)
        tauto
    · simp only [List.any_eq_false, List.mem_cons, List.not_mem_nil, or_false, decide_eq_true_eq]
      constructor
      · intro h c hcm
        have := h c hcm
        tauto
      · intro h c hcm
        have := h c hcm
        tauto
  have hk : ((constrsToCheck o).any (fun c => decide (c = .bgp true)) = false) ↔
      Constr.bgp true ∉ o.constrs := by
    unfold constrsToCheck Ocp.constrs
    split_ifs
    · simp only [List.any_eq_false, List.mem_cons, List.not_mem_nil, or_false, decide_eq_true_eq]
      constructor
      · intro h hm
        exact h (.bgp true) (by tauto) rfl
      · intro h c hcm he
        subst he
        exact h (by tauto)
    · simp only [List.any_eq_false, List.mem_cons, List.not_mem_nil, or_false, decide_eq_true_eq]
      constructor
      · intro h hm
        exact h (.bgp true) hm rfl
      · intro h c hcm he
        subst he
        exact h hcm
  unfold sensCheck
  constructor
  · intro h
    split_ifs at h with h1 h2 h3 h4
    exact ⟨by omega, hc.1 (by simpa using h2), fun hN => by by_contra hd; exact h3 ⟨hN, hd⟩,
      hk.1 (by rw [← Bool.not_eq_true]; exact h4)⟩
  · rintro ⟨h1, h2, h3, h4⟩
    rw [if_neg (by omega), if_neg (by rw [hc.2 h2]; simp), if_neg (by tauto),
      if_neg (by rw [hk.2 h4]; simp)]

theorem consistent_eq (o : Ocp) : consistent o =
    if o.N ≠ 0 ∧ (transferAll o).1.sensP = true ∧ o.integ ≠ .erk ∧ o.integ ≠ .irk then none
    else if o.condN.getD o.N > o.N then none
    else if o.oldSol = true ∧ (sensCheck o = false ∨ o.qp = .other) then none
    else if o.oldVal = true ∧ sensCheck o = false then none
    else some ({ o with gen := (transferAll o).1, condN := some (o.condN.getD o.N) }, (transferAll o).2) :=
  rfl

/-- The deprecated options and the new ones: which options the code is generated with. An option is on
if it is on at one of the two places; except that the deprecated option for solution sensitivities turns on the
adjoint ones only if the forward ones are not on at the new place. -/
theorem C109_options (o o' : Ocp) (w : ℕ) (h : consistent o = some (o', w)) :
    (o'.gen.forw = true ↔ o.oldSol = true ∨ o.gen.forw = true) ∧
    (o'.gen.adj = true ↔ (o.oldSol = true ∧ o.gen.forw = false) ∨ o.gen.adj = true) ∧
    (o'.gen.val = true ↔ o.oldVal = true ∨ o.gen.val = true) ∧
    (o'.gen.sensP = true ↔ o.oldSensP = true ∨ o.gen.sensP = true) ∧
    o'.condN = some (o.condN.getD o.N) ∧
    o' = { o with gen := o'.gen, condN := o'.condN } := by
  rw [consistent_eq] at h
  split_ifs at h
  simp only [Option.some.injEq, Prod.mk.injEq] at h
  obtain ⟨rfl, -⟩ := h
  refine ⟨?_, ?_, ?_, ?_, rfl, rfl⟩ <;>
  · simp only [transferAll, transferSol, transfer]
    rcases o.oldSol <;> rcases o.oldVal <;> rcases o.oldSensP <;> rcases hg : o.gen with ⟨a, b, c, d⟩ <;>
      rcases a <;> rcases b <;> rcases c <;> rcases d <;> simp

/-- Which descriptions are accepted. -/
theorem C109_accepts (o : Ocp) :
    (consistent o).isSome = true ↔
      (0 < o.N → (o.oldSensP = true ∨ o.gen.sensP = true) → o.integ = .erk ∨ o.integ = .irk) ∧
      (∀ n, o.condN = some n → n ≤ o.N) ∧
      (o.oldSol = true → o.Supported ∧ o.qp ≠ .other) ∧ (o.oldVal = true → o.Supported) := by
  have hs : (transferAll o).1.sensP = true ↔ o.oldSensP = true ∨ o.gen.sensP = true := by
    simp only [transferAll, transferSol, transfer]
    rcases o.oldSol <;> rcases o.oldVal <;> rcases o.oldSensP <;> rcases hg : o.gen with ⟨a, b, c, d⟩ <;>
      rcases a <;> rcases b <;> rcases c <;> rcases d <;> simp
  have hS : sensCheck o = false ↔ ¬ o.Supported := by
    rw [← Bool.not_eq_true, not_iff_not]
    exact sensCheck_iff o
  have hn : (∀ n, o.condN = some n → n ≤ o.N) ↔ ¬ o.condN.getD o.N > o.N := by
    rcases o.condN with _ | n <;> simp
  rw [consistent_eq, hn]
  simp only [hs]
  clear hs hn
  split_ifs with h1 h2 h3 h4
  · simp only [Option.isSome_none, Bool.false_eq_true, false_iff]
    rintro ⟨k, -⟩
    rcases k (by omega) h1.2.1 with k | k
    · exact h1.2.2.1 k
    · exact h1.2.2.2 k
  · simp only [Option.isSome_none, Bool.false_eq_true, false_iff]
    exact fun k => k.2.1 h2
  · simp only [Option.isSome_none, Bool.false_eq_true, false_iff]
    rintro ⟨-, -, k, -⟩
    rcases h3.2 with h | h
    · exact hS.1 h (k h3.1).1
    · exact (k h3.1).2 h
  · simp only [Option.isSome_none, Bool.false_eq_true, false_iff]
    rintro ⟨-, -, -, k⟩
    exact hS.1 h4.2 (k h4.1)
  · simp only [Option.isSome_some, true_iff]
    refine ⟨fun hN hp => ?_, h2, fun hp => ⟨?_, ?_⟩, fun hp => ?_⟩
    · by_contra hc
      exact h1 ⟨by omega, hp, fun e => hc (Or.inl e), fun e => hc (Or.inr e)⟩
    · by_contra hc
      exact h3 ⟨hp, Or.inl (hS.2 hc)⟩
    · exact fun hc => h3 ⟨hp, Or.inr hc⟩
    · by_contra hc
      exact h4 ⟨hp, hS.2 hc⟩

/-- A problem with three intervals, discrete dynamics, external costs and one global parameter; no
option for sensitivities. -/
def base : Ocp :=
  { N := 3, npGlobal := 1, cost0 := .external, cost := .external, costE := .external, constr0 := .bgh
    constr := .bgh, constrE := .bgh, integ := .discrete, qp := .partialHpipm, condN := none
    oldSol := false, oldVal := false, oldSensP := false, gen := ⟨false, false, false, false⟩
    scaled := false, exactHess := true, condRicAlg := true, ricAlg := false }

example : consistent { base with oldSol := true } =
    some ({ base with oldSol := true, condN := some 3, gen := ⟨true, true, false, false⟩ }, 0) := by
  decide +kernel

example : consistent { base with oldSol := true, cost := .nonlinearLs } = none := by decide +kernel

/-- Missing: the options at the new place, see `C109_new_place_false`. If sensitivities were asked for at the deprecated place only, a description that
is accepted and has them meets the documented requirements. -/
theorem C109_supported_partial (o o' : Ocp) (w : ℕ) (h : consistent o = some (o', w))
    (hg : o.gen.forw = false ∧ o.gen.adj = false ∧ o.gen.val = false)
    (ha : o'.gen.forw = true ∨ o'.gen.adj = true ∨ o'.gen.val = true) : o'.Supported := by
  obtain ⟨h1, h2, h3, -, -, h6⟩ := C109_options o o' w h
  obtain ⟨-, -, k1, k2⟩ := (C109_accepts o).1 (by rw [h]; rfl)
  have hs : o.Supported := by
    obtain ⟨g1, g2, g3⟩ := hg
    rw [h1, h2, h3, g1, g2, g3] at ha
    simp only [Bool.false_eq_true, or_false, and_true] at ha
    rcases ha with ha | ha | ha
    · exact (k1 ha).1
    · exact (k1 ha).1
    · exact k2 ha
  rw [h6]
  exact ⟨hs.params, hs.cost, hs.dyn, hs.constr⟩

example : ∃ o', consistent { base with oldSol := true } = some (o', 0) ∧ o'.gen.adj = true :=
  ⟨{ base with oldSol := true, condN := some 3, gen := ⟨true, true, false, false⟩ }, by decide +kernel,
    rfl⟩

/-- **Not true in general**: with the options at the new place, descriptions that violate each of the
requirements are accepted: no parameters, another cost, continuous dynamics, dependent constraints. -/
theorem C109_new_place_false :
    ∀ o ∈ [{ base with npGlobal := 0 }, { base with cost := .nonlinearLs }, { base with integ := .erk },
        { base with constr := .bgp true }],
      ∃ o', consistent { o with gen := ⟨true, true, true, false⟩ } = some (o', 0) ∧
        o'.gen.forw = true ∧ o'.gen.adj = true ∧ o'.gen.val = true ∧ ¬ o'.Supported := by
  intro o ho
  refine ⟨{ o with condN := some 3, gen := ⟨true, true, true, false⟩ }, ?_, rfl, rfl, rfl, ?_⟩
  · revert o
    decide +kernel
  · rw [← sensCheck_iff]
    revert o
    decide +kernel

/-- **Not true**: the deprecated option always turns on both directions, as documented. -/
theorem C109_both_directions_false :
    ∃ o o' : Ocp, ∃ w, consistent o = some (o', w) ∧ o.oldSol = true ∧ o'.gen.adj = false :=
  ⟨{ base with oldSol := true, gen := ⟨true, false, false, false⟩ },
    { base with oldSol := true, gen := ⟨true, false, false, false⟩, condN := some 3 }, 1,
    by decide +kernel, rfl, rfl⟩

theorem gen_ext {a b : Gen} (h1 : a.forw = b.forw) (h2 : a.adj = b.adj) (h3 : a.val = b.val)
    (h4 : a.sensP = b.sensP) : a = b := by
  cases a
  cases b
  simp only [Gen.mk.injEq]
  exact ⟨h1, h2, h3, h4⟩

theorem eq_of_cond (o : Ocp) (n : ℕ) (h : o.condN = some n) :
    { o with gen := o.gen, condN := some (Option.getD (some n) o.N) } = o := by
  cases o
  simp only at h
  subst h
  rfl

/-- A second call changes nothing, and its warnings are about the deprecated options that are on: the
first call made the new ones equal. -/
theorem C109_idempotent (o o' : Ocp) (w : ℕ) (h : consistent o = some (o', w)) :
    consistent o' = some (o', o.oldSol.toNat + o.oldVal.toNat + o.oldSensP.toNat) := by
  obtain ⟨h1, h2, h3, h4, h5, h6⟩ := C109_options o o' w h
  have hsome : (consistent o').isSome = true := by
    rw [C109_accepts]
    obtain ⟨k1, k2, k3, k4⟩ := (C109_accepts o).1 (by rw [h]; rfl)
    have hS : o.Supported → o'.Supported := by
      intro hs
      rw [h6]
      exact ⟨hs.params, hs.cost, hs.dyn, hs.constr⟩
    have e1 : o'.N = o.N := by
      have k := congrArg Ocp.N h6
      exact k
    have e2 : o'.integ = o.integ := by
      have k := congrArg Ocp.integ h6
      exact k
    have e3 : o'.oldSol = o.oldSol := by
      have k := congrArg Ocp.oldSol h6
      exact k
    have e4 : o'.oldVal = o.oldVal := by
      have k := congrArg Ocp.oldVal h6
      exact k
    have e5 : o'.oldSensP = o.oldSensP := by
      have k := congrArg Ocp.oldSensP h6
      exact k
    have e6 : o'.qp = o.qp := by
      have k := congrArg Ocp.qp h6
      exact k
    rw [e1, e2, e3, e4, e5, e6]
    refine ⟨fun hN hp => k1 hN ?_, ?_, fun hp => ⟨hS (k3 hp).1, (k3 hp).2⟩, fun hp => hS (k4 hp)⟩
    · rcases hp with hp | hp
      · exact Or.inl hp
      · exact h4.1 hp
    · intro n hn
      rw [h5] at hn
      obtain rfl := Option.some.inj hn
      rcases hc : o.condN with _ | m
      · exact Nat.le_refl _
      · exact k2 m hc
  obtain ⟨⟨o2, w2⟩, h7⟩ := Option.isSome_iff_exists.1 hsome
  obtain ⟨g1, g2, g3, g4, g5, g6⟩ := C109_options o' o2 w2 h7
  have e3 : o'.oldSol = o.oldSol := by
    have k := congrArg Ocp.oldSol h6
    exact k
  have e4 : o'.oldVal = o.oldVal := by
    have k := congrArg Ocp.oldVal h6
    exact k
  have e5 : o'.oldSensP = o.oldSensP := by
    have k := congrArg Ocp.oldSensP h6
    exact k
  have hgen : o2.gen = o'.gen := by
    have a1 : o2.gen.forw = o'.gen.forw := by
      rw [Bool.eq_iff_iff, g1]
      exact ⟨fun p => p.elim (fun p => h1.2 (Or.inl (e3 ▸ p))) id, Or.inr⟩
    have a2 : o2.gen.adj = o'.gen.adj := by
      rw [Bool.eq_iff_iff, g2]
      constructor
      · rintro (⟨p, q⟩ | p)
        · rw [e3] at p
          have := h1.2 (Or.inl p)
          rw [this] at q
          exact absurd q (by simp)
        · exact p
      · exact Or.inr
    have a3 : o2.gen.val = o'.gen.val := by
      rw [Bool.eq_iff_iff, g3]
      exact ⟨fun p => p.elim (fun p => h3.2 (Or.inl (e4 ▸ p))) id, Or.inr⟩
    have a4 : o2.gen.sensP = o'.gen.sensP := by
      rw [Bool.eq_iff_iff, g4]
      exact ⟨fun p => p.elim (fun p => h4.2 (Or.inl (e5 ▸ p))) id, Or.inr⟩
    exact gen_ext a1 a2 a3 a4
  have ho : o2 = o' := by
    rw [g6, hgen, g5, h5]
    exact eq_of_cond o' _ h5
  have hw : w2 = o.oldSol.toNat + o.oldVal.toNat + o.oldSensP.toNat := by
    have hx : w2 = (transferAll o').2 := by
      rw [consistent_eq] at h7
      split_ifs at h7
      simp only [Option.some.injEq, Prod.mk.injEq] at h7
      exact h7.2.symm
    rw [hx, ← e3, ← e4, ← e5]
    have f1 : o'.oldSol = true → o'.gen.forw = true := fun p => h1.2 (Or.inl (e3 ▸ p))
    have f2 : o'.oldVal = true → o'.gen.val = true := fun p => h3.2 (Or.inl (e4 ▸ p))
    have f3 : o'.oldSensP = true → o'.gen.sensP = true := fun p => h4.2 (Or.inl (e5 ▸ p))
    revert f1 f2 f3
    simp only [transferAll, transferSol, transfer]
    rcases o'.oldSol <;> rcases o'.oldVal <;> rcases o'.oldSensP <;> rcases hg : o'.gen with ⟨a, b, c, d⟩ <;>
      rcases a <;> rcases b <;> rcases c <;> rcases d <;> simp
  rw [h7, ho, hw]

/-- The check before an evaluation, for a description that was made consistent: no exception exactly
if the functions were generated and the results are reliable. The algorithm for condensing does not
matter. -/
theorem C109_available (o o' : Ocp) (w : ℕ) (h : consistent o = some (o', w)) (parametric forward : Bool) :
    ensure parametric forward o' = true ↔
      o'.Reliable ∧
        (parametric = true → if forward then o'.gen.forw = true else o'.gen.adj = true) := by
  obtain ⟨-, -, -, -, h5, h6⟩ := C109_options o o' w h
  obtain ⟨-, k2, -, -⟩ := (C109_accepts o).1 (by rw [h]; rfl)
  have hle : o.condN.getD o.N ≤ o'.N := by
    have e1 : o'.N = o.N := by
      have k := congrArg Ocp.N h6
      exact k
    rw [e1]
    rcases hc : o.condN with _ | m
    · exact Nat.le_refl _
    · exact k2 m hc
  unfold ensure
  rw [h5]
  dsimp only
  generalize o.condN.getD o.N = n at h5 hle
  unfold ensureCore
  constructor
  · intro hh
    split_ifs at hh with c1 c2 c3 c4 c5 c6 c7 c8
    refine ⟨⟨c1, by simpa using c4, by simpa using c5, fun hN hf => c6 (Or.inl ⟨hf, hN⟩), ?_,
      by simpa using c8⟩, ?_⟩
    · intro m hm
      rw [h5] at hm
      obtain rfl := Option.some.inj hm
      by_contra hc
      exact c6 (Or.inr (by omega))
    · intro hp
      rcases forward with _ | _
      · simp only [hp, true_and, Bool.not_eq_false] at c3
        simpa using c3
      · simp only [hp, true_and, Bool.not_eq_false] at c2
        simpa using c2
  · rintro ⟨⟨r1, r2, r3, r4, r5, r6⟩, hp⟩
    have hn : n = o'.N := Nat.le_antisymm hle (r5 n h5)
    have hf : ¬ (o'.qp = .fullHpipm ∧ o'.N > 0) := fun hx => r4 hx.2 hx.1
    rw [if_neg r1, if_neg, if_neg, if_neg (by simp [r2]), if_neg (by simp [r3]), if_neg, if_neg,
      if_neg (by simp [r6])]
    · rintro ⟨hx | hx, -⟩
      · exact hx hn
      · exact hf hx
    · rintro (hx | hx)
      · exact hf hx
      · omega
    · rintro ⟨p, q, s⟩
      have := hp p
      simp [q, s] at this
    · rintro ⟨p, q, s⟩
      have := hp p
      simp [q, s] at this

example : ∃ o', consistent { base with oldSol := true } = some (o', 0) ∧ ensure true false o' = true :=
  ⟨{ base with oldSol := true, condN := some 3, gen := ⟨true, true, false, false⟩ }, by decide +kernel,
    by decide +kernel⟩

/-- **Not true**: the answer of the check is the same before and after the description was made
consistent, which the check does itself if needed. -/
theorem C109_check_before_false :
    ∃ o o' : Ocp, consistent o = some (o', 0) ∧ ensure true true o = false ∧ ensure true true o' = true :=
  ⟨{ base with oldSol := true, condN := some 3 },
    { base with oldSol := true, condN := some 3, gen := ⟨true, true, false, false⟩ },
    by decide +kernel, by decide +kernel, by decide +kernel⟩

/-- The answer is the same if the condensing horizon is not set. -/
theorem C109_check_before_partial (o o' : Ocp) (w : ℕ) (h : consistent o = some (o', w))
    (hn : o.condN = none) (parametric forward : Bool) :
    ensure parametric forward o = ensure parametric forward o' := by
  obtain ⟨-, -, -, -, h5, -⟩ := C109_options o o' w h
  unfold ensure
  simp only [hn, h, h5, Option.getD]

theorem costAt_mem (o : Ocp) (i : ℕ) (hi : i ≤ o.N) : costAt o i ∈ o.costs := by
  unfold costAt Ocp.costs
  split_ifs <;> first | omega | simp

theorem constrAt_mem (o : Ocp) (i : ℕ) (hi : i ≤ o.N) : constrAt o i ∈ o.constrs := by
  unfold constrAt Ocp.constrs
  split_ifs <;> first | omega | simp

/-- With a supported description without constraints of type BGP, forward sensitivities are computed or there is an exception: the process does not end. Missing: BGP
constraints that do not depend on the parameters, see `C109_exit_false`. -/
theorem C109_forward_partial (o : Ocp) (hs : o.Supported) (hb : ∀ c ∈ o.constrs, c = .bgh)
    (hn : o.condN ≠ none) :
    evalForward true o = if ensure true true o then .computes else .raises := by
  unfold evalForward
  rcases he : ensure true true o with _ | _
  · simp
  · have hf : o.gen.forw = true := by
      by_contra hc
      obtain ⟨n, hn⟩ := Option.ne_none_iff_exists'.1 hn
      have hc : o.gen.forw = false := by simpa using hc
      simp [ensure, hn, ensureCore, hc] at he
    have hj : jacStages o = true := by
      unfold jacStages
      rw [List.all_eq_true]
      intro i hi
      rw [List.mem_range] at hi
      have h1 := hs.cost _ (costAt_mem o i (by omega))
      have h2 := hb _ (constrAt_mem o i (by omega))
      have h3 : (if i < o.N then dynHas o.integ else true) = true := by
        split_ifs with hlt
        · rw [hs.dyn (by omega)]
          rfl
        · rfl
      rw [h3, h2]
      simp [costHas, h1, constrHas]
    simp [hf, hj]

/-- The same for adjoint sensitivities. Missing: linear least-squares costs and BGP constraints, see
`C109_exit_false`. -/
theorem C109_adjoint_partial (o : Ocp) (hs : o.Supported) (hb : ∀ c ∈ o.constrs, c = .bgh)
    (hc : ∀ c ∈ o.costs, c = .external) (hn : o.condN ≠ none) :
    evalAdjoint true o = if ensure true false o then .computes else .raises := by
  unfold evalAdjoint
  rcases he : ensure true false o with _ | _
  · simp
  · have hf : o.gen.adj = true := by
      by_contra hc
      obtain ⟨n, hn⟩ := Option.ne_none_iff_exists'.1 hn
      have hc : o.gen.adj = false := by simpa using hc
      simp [ensure, hn, ensureCore, hc] at he
    have hj : adjStages o = true := by
      unfold adjStages
      rw [List.all_eq_true]
      intro i hi
      rw [List.mem_range] at hi
      have h1 := hc _ (costAt_mem o i (by omega))
      have h2 := hb _ (constrAt_mem o i (by omega))
      have h3 : (if i < o.N then dynHas o.integ else true) = true := by
        split_ifs with hlt
        · rw [hs.dyn (by omega)]
          rfl
        · rfl
      rw [h3, h2, h1]
      rfl
    simp [hf, hj]

/-- The gradient of the optimal value is computed for a supported description that has the option and
no constraints of type BGP. -/
theorem C109_value_partial (o : Ocp) (hs : o.Supported) (hb : ∀ c ∈ o.constrs, c = .bgh)
    (hv : o.gen.val = true) : evalValue o = .computes := by
  have hj : gradStages o = true := by
    unfold gradStages
    rw [List.all_eq_true]
    intro i hi
    rw [List.mem_range] at hi
    have h1 := hs.cost _ (costAt_mem o i (by omega))
    have h2 := hb _ (constrAt_mem o i (by omega))
    rw [hs.dyn (by omega), h2]
    simp [dynHas, costHas, h1, constrHas]
  have h1 := hs.cost _ (costAt_mem o o.N (Nat.le_refl _))
  unfold evalValue
  simp [hv, hj, costHas, h1]

example : evalForward true { base with condN := some 3, gen := ⟨true, true, true, false⟩ } = .computes ∧
    evalAdjoint true { base with condN := some 3, gen := ⟨true, true, true, false⟩ } = .computes ∧
    evalValue { base with condN := some 3, gen := ⟨true, true, true, false⟩ } = .computes ∧
    evalForward true { base with condN := some 3 } = .raises := by decide +kernel

/-- **Not true in general**: evaluations of accepted descriptions that pass the check end the process
instead of raising an exception. Adjoint sensitivities with a linear least-squares cost, which is
documented as supported; BGP constraints that do not depend on the parameters, also supported;
continuous dynamics with the options at the new place; the gradient of the optimal value without its
option; without intervals the latter calls a function that does not exist. -/
theorem C109_exit_false :
    (∃ o o' : Ocp, consistent o = some (o', 0) ∧ o.oldSol = true ∧ o'.Supported ∧
      (∀ c ∈ o'.constrs, c = .bgh) ∧ ensure true false o' = true ∧ evalAdjoint true o' = .exits) ∧
    (∃ o o' : Ocp, consistent o = some (o', 0) ∧ o.oldSol = true ∧ o'.Supported ∧
      ensure true true o' = true ∧ evalForward true o' = .exits) ∧
    (∃ o o' : Ocp, consistent o = some (o', 0) ∧ ensure true true o' = true ∧
      (∀ c ∈ o'.constrs, c = .bgh) ∧ (∀ c ∈ o'.costs, c = .external) ∧ evalForward true o' = .exits) ∧
    (∃ o o' : Ocp, consistent o = some (o', 0) ∧ o'.Supported ∧ evalValue o' = .exits) ∧
    (∃ o o' : Ocp, consistent o = some (o', 0) ∧ o'.Supported ∧ evalValue o' = .undefined) := by
  let g : Gen := ⟨true, true, false, false⟩
  refine ⟨⟨{ base with oldSol := true, costE := .linearLs },
      { base with oldSol := true, costE := .linearLs, condN := some 3, gen := g }, ?_⟩,
    ⟨{ base with oldSol := true, constr := .bgp false },
      { base with oldSol := true, constr := .bgp false, condN := some 3, gen := g }, ?_⟩,
    ⟨{ base with integ := .erk, gen := g }, { base with integ := .erk, condN := some 3, gen := g }, ?_⟩,
    ⟨base, { base with condN := some 3 }, ?_⟩,
    ⟨{ base with N := 0 }, { base with N := 0, condN := some 0 }, ?_⟩⟩
  all_goals simp only [← sensCheck_iff]
  all_goals decide +kernel

/-- All kinds of stages occur if there are at least two intervals. -/
theorem all_stages (o : Ocp) (hN : 2 ≤ o.N) (P : Cost → Bool) (Q : Constr → Bool) :
    ((List.range (o.N + 1)).all fun i =>
      (if i < o.N then dynHas o.integ else true) && P (costAt o i) && Q (constrAt o i)) = true ↔
    o.integ = .discrete ∧ (∀ c ∈ o.costs, P c = true) ∧ ∀ c ∈ o.constrs, Q c = true := by
  rw [List.all_eq_true]
  have hc : o.costs = [o.cost0, o.cost, o.costE] := if_pos (by omega)
  have hk : o.constrs = [o.constr0, o.constr, o.constrE] := if_pos (by omega)
  constructor
  · intro h
    have h0 := h 0 (by simp)
    have h1 := h 1 (by rw [List.mem_range]; omega)
    have h2 := h o.N (by simp)
    rw [Bool.and_eq_true, Bool.and_eq_true, if_pos (by omega)] at h0
    rw [Bool.and_eq_true, Bool.and_eq_true] at h1 h2
    rw [costAt, constrAt, if_neg (by omega), if_pos rfl, if_neg (by omega), if_pos rfl] at h0
    rw [costAt, constrAt, if_neg (by omega : ¬ 1 = o.N), if_neg (by omega : ¬ 1 = 0), if_neg (by omega : ¬ 1 = o.N),
      if_neg (by omega : ¬ 1 = 0)] at h1
    rw [costAt, constrAt, if_pos rfl, if_pos rfl] at h2
    rw [hc, hk]
    refine ⟨of_decide_eq_true h0.1.1, ?_, ?_⟩
    · intro c hm
      simp only [List.mem_cons, List.not_mem_nil, or_false] at hm
      rcases hm with rfl | rfl | rfl
      · exact h0.1.2
      · exact h1.1.2
      · exact h2.1.2
    · intro c hm
      simp only [List.mem_cons, List.not_mem_nil, or_false] at hm
      rcases hm with rfl | rfl | rfl
      · exact h0.2
      · exact h1.2
      · exact h2.2
  · rintro ⟨h1, h2, h3⟩ i hi
    rw [List.mem_range] at hi
    rw [h1, h2 _ (costAt_mem o i (by omega)), h3 _ (constrAt_mem o i (by omega))]
    simp [dynHas]

/-- Exactly when evaluating forward sensitivities ends the process although the check passed, for at
least two intervals: continuous dynamics, a nonlinear least-squares or convex-over-nonlinear cost, or
BGP constraints, at any kind of stages. -/
theorem C109_forward_exits (o : Ocp) (hN : 2 ≤ o.N) (hn : o.condN ≠ none) :
    evalForward true o = .exits ↔
      ensure true true o = true ∧ ¬ (o.integ = .discrete ∧
        (∀ c ∈ o.costs, c = .external ∨ c = .linearLs) ∧ ∀ c ∈ o.constrs, c = .bgh) := by
  have hj := all_stages o hN costHas constrHas
  simp only [costHas, constrHas, decide_eq_true_eq] at hj
  rw [← hj]
  unfold evalForward
  rcases he : ensure true true o with _ | _
  · simp
  · have hf : o.gen.forw = true := by
      by_contra hc
      obtain ⟨n, hn⟩ := Option.ne_none_iff_exists'.1 hn
      have hc : o.gen.forw = false := by simpa using hc
      simp [ensure, hn, ensureCore, hc] at he
    rw [if_neg (by simp), if_neg (by simp [hf])]
    simp only [true_and]
    change (if jacStages o = true then Outcome.computes else Outcome.exits) = _ ↔ ¬ jacStages o = true
    split_ifs with h <;> simp [h]

/-- The same for adjoint sensitivities: also for linear least-squares costs. -/
theorem C109_adjoint_exits (o : Ocp) (hN : 2 ≤ o.N) (hn : o.condN ≠ none) :
    evalAdjoint true o = .exits ↔
      ensure true false o = true ∧ ¬ (o.integ = .discrete ∧
        (∀ c ∈ o.costs, c = .external) ∧ ∀ c ∈ o.constrs, c = .bgh) := by
  have hj := all_stages o hN costHasAdj constrHas
  have hb : adjStages o = ((List.range (o.N + 1)).all fun i =>
      (if i < o.N then dynHas o.integ else true) && costHasAdj (costAt o i) && constrHas (constrAt o i)) := by
    unfold adjStages
    congr 1
    funext i
    rw [Bool.and_comm (costHasAdj _)]
  rw [← hb] at hj
  simp only [costHasAdj, constrHas, decide_eq_true_eq] at hj
  rw [← hj]
  unfold evalAdjoint
  rcases he : ensure true false o with _ | _
  · simp
  · have hf : o.gen.adj = true := by
      by_contra hc
      obtain ⟨n, hn⟩ := Option.ne_none_iff_exists'.1 hn
      have hc : o.gen.adj = false := by simpa using hc
      simp [ensure, hn, ensureCore, hc] at he
    rw [if_neg (by simp), if_neg (by simp [hf])]
    simp only [true_and]
    split_ifs with h <;> simp [h]

example : evalAdjoint true
    { base with cost := .linearLs, condN := some 3, gen := ⟨true, true, true, false⟩ } = .exits ∧
    evalForward true
    { base with cost := .linearLs, condN := some 3, gen := ⟨true, true, true, false⟩ } = .computes := by
  decide +kernel

end Acados.SensOpts
