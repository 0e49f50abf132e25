import Verif.Lemmas.MultiPhase
import Mathlib.Tactic.NormNum
/-!
# C88: multi-phase problems

Each stage belongs to one phase, and gets cost, constraints, dynamics, dimensions and parameters of its phase.
-/
namespace Acados.MultiPhase
variable {K : Type}

/-- every stage but the last lies in exactly one phase -/
theorem C88_phase (Nl : List Int) (hN : ∀ n ∈ Nl, 1 ≤ n) (i : Int) : (0 ≤ i ∧ i < Nl.sum) ↔ ∃! j, InPhase Nl i j := by
  constructor
  · rintro ⟨h0, h1⟩
    obtain ⟨j, hj⟩ := InPhase.exists Nl i h0 h1
    exact ⟨j, hj, fun k hk => InPhase.unique (nonneg_of_pos hN) hk hj⟩
  · rintro ⟨j, hj, _⟩
    exact hj.range (nonneg_of_pos hN)

example : ∃! j, InPhase [2, 3] 3 j := (C88_phase [2, 3] (by decide) 3).1 (by decide)

/-- types of cost and constraints: the loops write inside the arrays; the initial stage gets the type the first phase gives for the
initial stage, each stage between the path type of its phase, the last one the terminal type of the last phase -/
theorem C88_plan (Nl : List Int) (phs : List (Phase K)) (hN : ∀ n ∈ Nl, 1 ≤ n) (hne : Nl ≠ []) :
    ∀ f ∈ [Phase.cost, Phase.constr],
      inBounds (Nl.sum + 1) (planWrites Nl phs (f · .init) (f · .path) (f · .term)) = true
      ∧ (∀ ph, phs.head? = some ph → entry (planWrites Nl phs (f · .init) (f · .path) (f · .term)) 0 = some (f ph .init))
      ∧ (∀ i j ph, 0 < i → InPhase Nl i j → phs[j]? = some ph →
        entry (planWrites Nl phs (f · .init) (f · .path) (f · .term)) i = some (f ph .path))
      ∧ ∀ ph, phs.getLast? = some ph → entry (planWrites Nl phs (f · .init) (f · .path) (f · .term)) Nl.sum = some (f ph .term) :=
  fun f _ => plan_entries Nl phs (f · .init) (f · .path) (f · .term) hN hne

/-- a phase -/
def exPhase (c nx nxNext : Nat) (integ : Integ) (p : List ℚ) : Phase ℚ :=
  ⟨fun k => match k with | .init => 10 * c | .path => 10 * c + 1 | .term => 10 * c + 2, fun _ => c,
    fun k d => match d with | .nx => nx | .np => p.length | .nu => 1 | _ => match k with | .init => 10 * c | .path => 10 * c + 1 | .term => 10 * c + 2,
    nxNext, integ, p⟩

example : (List.range 6).map (fun i => entry (planWrites [2, 3] [exPhase 1 2 2 .erk [], exPhase 2 2 2 .irk []] (·.cost .init) (·.cost .path) (·.cost .term)) i)
    = [some 10, some 11, some 21, some 21, some 21, some 22] := by decide +kernel

/-- dynamics: each stage but the last gets the integrator of its phase -/
theorem C88_dynamics (Nl : List Int) (phs : List (Phase K)) (hN : ∀ n ∈ Nl, 1 ≤ n) :
    inBounds Nl.sum (dynWrites Nl phs) = true
    ∧ ∀ i j ph, InPhase Nl i j → phs[j]? = some ph → entry (dynWrites Nl phs) i = some ph.integ :=
  dyn_entries Nl phs (nonneg_of_pos hN)

example : (List.range 5).map (fun i => entry (dynWrites [2, 3] [exPhase 1 2 2 .erk [], exPhase 2 2 2 .irk []]) i)
    = [some .erk, some .erk, some .irk, some .irk, some .irk] := by decide +kernel

/-- dimensions: each stage gets the dimensions of its phase for its kind -/
theorem C88_dims (Nl : List Int) (phs : List (Phase K)) (hN : ∀ n ∈ Nl, 1 ≤ n) (hne : Nl ≠ []) (d : Dim) :
    inBounds (Nl.sum + 1) (dimWrites Nl phs d) = true
    ∧ (∀ ph, phs.head? = some ph → entry (dimWrites Nl phs d) 0 = some (ph.dim .init d))
    ∧ (∀ i j ph, 0 < i → InPhase Nl i j → phs[j]? = some ph → entry (dimWrites Nl phs d) i = some (ph.dim .path d))
    ∧ ∀ ph, phs.getLast? = some ph → entry (dimWrites Nl phs d) Nl.sum = some (ph.dim .term d) :=
  dim_entries Nl phs d hN hne

example : ((List.range 6).map fun i => entry (dimWrites [2, 3] [exPhase 1 2 2 .erk [], exPhase 2 2 2 .irk []] .nh) i)
    = [some 10, some 11, some 21, some 21, some 21, some 22] := by decide +kernel

example : ((List.range 6).map fun i => entry (dimWrites [2, 3] [exPhase 1 2 2 .erk [], exPhase 2 2 2 .irk []] .nu) i)
    = [some 1, some 1, some 1, some 1, some 1, some 0] := by decide +kernel

/-- the lengths of the phases must be at least 1, which is not checked: with a phase of negative length the loops write outside the
arrays; after an empty first phase the first stage is created with the path cost of the second phase and the dimensions of the
first one -/
theorem C88_lengths_false :
    (∃ (Nl : List Int) (phs : List (PhaseIn ℚ)), accepted Nl phs none .erk true = true
      ∧ inBounds (Nl.sum + 1) (planWrites Nl (phs.map (·.data)) (·.cost .init) (·.cost .path) (·.cost .term)) = false
      ∧ inBounds Nl.sum (dynWrites Nl (phs.map (·.data))) = false)
    ∧ ∃ (Nl : List Int) (phs : List (PhaseIn ℚ)) (a b : Phase ℚ), accepted Nl phs none .erk true = true ∧ phs.map (·.data) = [a, b]
      ∧ entry (planWrites Nl [a, b] (·.cost .init) (·.cost .path) (·.cost .term)) 0 = some (b.cost .path)
      ∧ b.cost .path ≠ a.cost .init
      ∧ entry (dimWrites Nl [a, b] .ny) 0 = some (a.dim .init .ny) ∧ a.dim .init .ny ≠ b.dim .path .ny := by
  constructor
  · exact ⟨[5, -4], [⟨['a'], 0, 0, 0, none, exPhase 1 2 2 .erk []⟩, ⟨['b'], 1, 1, 1, none, exPhase 2 2 2 .erk []⟩],
      by decide +kernel, by decide +kernel, by decide +kernel⟩
  · exact ⟨[0, 2], [⟨['a'], 0, 0, 0, none, exPhase 1 2 2 .erk []⟩, ⟨['b'], 1, 1, 1, none, exPhase 2 2 2 .erk []⟩],
      exPhase 1 2 2 .erk [], exPhase 2 2 2 .erk [], by decide +kernel, rfl, by decide +kernel, by decide +kernel, by decide +kernel,
      by decide +kernel⟩

/-- acceptance: the problem is refused unless models, costs and constraints are different objects, all phases have the same global
parameters, and there is one integrator for each phase -/
theorem C88_objects (Nl : List Int) (phs : List (PhaseIn K)) (integ : Option (List Integ)) (shared : Integ) (rest : Bool)
    (h : accepted Nl phs integ shared rest = true) :
    (phs.map (·.model)).Nodup ∧ (phs.map (·.cost)).Nodup ∧ (phs.map (·.constr)).Nodup
    ∧ (∀ a ∈ phs, ∀ b ∈ phs, a.pGlobal = b.pGlobal)
    ∧ phs.length = Nl.length ∧ rest = true
    ∧ (∀ l, integ = some l → l = phs.map (·.data.integ)) ∧ (integ = none → ∀ ph ∈ phs, ph.data.integ = shared) := by
  obtain ⟨_, h2, h3, h4, h5, h6, _, h8, _⟩ := (accepted_iff Nl phs integ shared rest).1 h
  refine ⟨distinct_nodup _ h3, distinct_nodup _ h4, distinct_nodup _ h5, ?_, ?_, h8, ?_, ?_⟩
  · unfold pGlobalOk at h6
    rw [List.all_eq_true] at h6
    intro a ha b hb
    have e1 := h6 _ (List.mem_map.2 ⟨a, ha, rfl⟩)
    have e2 := h6 _ (List.mem_map.2 ⟨b, hb, rfl⟩)
    simp only [decide_eq_true_eq] at e1 e2
    rw [e1, e2]
  · unfold phaseOption at h2
    have key : ∀ l : List Integ, (if l.length ≠ Nl.length then none else some l) = some (phs.map (·.data.integ)) →
        phs.length = Nl.length := by
      intro l h2
      by_cases hl : l.length ≠ Nl.length
      · rw [if_pos hl] at h2; cases h2
      · rw [if_neg hl] at h2
        have := congrArg List.length (Option.some.inj h2)
        rw [List.length_map] at this
        omega
    exact key _ h2
  · rintro l rfl
    unfold phaseOption at h2
    dsimp only at h2
    split at h2
    · cases h2
    · exact Option.some.inj h2
  · rintro rfl ph hph
    unfold phaseOption at h2
    dsimp only at h2
    split at h2
    · cases h2
    · have h2 := Option.some.inj h2
      have hm : ph.data.integ ∈ phs.map (·.data.integ) := List.mem_map.2 ⟨ph, hph, rfl⟩
      rw [← h2] at hm
      exact List.eq_of_mem_replicate hm

example : accepted [2, 3] [(⟨['a'], 0, 0, 0, some 1, exPhase 1 2 2 .erk []⟩ : PhaseIn ℚ), ⟨['b'], 1, 1, 1, some 1, exPhase 2 2 2 .irk []⟩]
      (some [.erk, .irk]) .erk true = true
    ∧ accepted [2, 3] [(⟨['a'], 0, 0, 0, some 1, exPhase 1 2 2 .erk []⟩ : PhaseIn ℚ), ⟨['b'], 1, 0, 1, some 1, exPhase 2 2 2 .irk []⟩]
      (some [.erk, .irk]) .erk true = false := by decide +kernel

/-- the states of consecutive stages fit: the dynamics of an accepted problem map to a state of the dimension of the next stage,
provided that in a phase of one interval the next state has the dimension of the state if the next phase has (or there is none) -/
theorem C88_transition_partial (Nl : List Int) (phs : List (PhaseIn K)) (integ : Option (List Integ)) (shared : Integ) (rest : Bool)
    (hN : ∀ n ∈ Nl, 1 ≤ n) (h : accepted Nl phs integ shared rest = true)
    (h1 : ∀ (j : Nat) (a : PhaseIn K), Nl[j]? = some 1 → phs[j]? = some a → (∀ b, phs[j + 1]? = some b → b.data.dims .path .nx = a.data.dims .path .nx) →
      a.data.nxNext = a.data.dims .path .nx)
    (i : Int) (j : Nat) (a : PhaseIn K) (hi : InPhase Nl i j) (ha : phs[j]? = some a) :
    entry (dimWrites Nl (phs.map (·.data)) .nx) (i + 1) = some a.data.nxNext := by
  have hlen := (C88_objects Nl phs integ shared rest h).2.2.2.2.1
  obtain ⟨_, _, _, _, _, _, h7, _, h9⟩ := (accepted_iff Nl phs integ shared rest).1 h
  have hne : Nl ≠ [] := by
    rintro rfl
    exact absurd hi.1 (by simp)
  have h0 := nonneg_of_pos hN
  have hr := hi.range h0
  obtain ⟨_, _, d2, d3⟩ := dim_entries Nl (phs.map (·.data)) .nx hN hne
  have hget : ∀ (k : Nat) (b : PhaseIn K), phs[k]? = some b → (phs.map (·.data))[k]? = some b.data := by
    intro k b hb
    rw [List.getElem?_map, hb]; rfl
  have hnj : Nl[j]? = some (Nl[j]'hi.1) := List.getElem?_eq_getElem hi.1
  have hnx : ∀ n, Nl[j]? = some n → 1 < n → a.data.nxNext = a.data.dims .path .nx := by
    intro n hn h1n
    have hz : (n, a.data) ∈ Nl.zip (phs.map (·.data)) := by
      rw [List.mem_iff_getElem?]
      exact ⟨j, by rw [List.getElem?_zip_eq_some]; exact ⟨hn, hget j a ha⟩⟩
    have := h7 _ hz
    unfold nxNextOk at this
    simp at this
    by_contra hc
    rcases this with e | e
    · exact hc e.symm
    · omega
  have hge := hN _ (List.getElem_mem hi.1)
  rcases next_phase Nl hN i j hi with ⟨hs, n, hn, h1n⟩ | hs | ⟨hs, hj⟩
  · rw [d2 (i + 1) j a.data (by omega) hs (hget j a ha), hnx n hn h1n]
    rfl
  · have hb : j + 1 < phs.length := by rw [hlen]; exact hs.1
    have hb' := List.getElem?_eq_getElem hb
    rw [d2 (i + 1) (j + 1) _ (by omega) hs (hget (j + 1) _ hb')]
    have ht := transitionsOk_get Nl _ h9 j a.data _ _ hnj (hget j a ha) (hget (j + 1) _ hb')
    unfold transitionOk at ht
    show some ((phs[j + 1]).data.dims .path .nx) = some a.data.nxNext
    split at ht
    · simp only [Bool.and_eq_true, decide_eq_true_eq] at ht
      rw [ht.1]
    · rename_i he
      have he := not_not.1 he
      rw [he]
      by_cases h1n : 1 < Nl[j]
      · rw [hnx _ hnj h1n]
      · have h1e : Nl[j] = 1 := by omega
        rw [h1 j a (by rw [hnj, h1e]) ha]
        intro b hb2
        rw [hb'] at hb2
        cases hb2
        exact he
  · have hlast : (phs.map (·.data)).getLast? = some a.data := by
      rw [List.getLast?_eq_getElem?, List.length_map, hlen, ← hj]
      exact hget j a ha
    rw [hs, d3 a.data hlast]
    show some (a.data.dims .path .nx) = some a.data.nxNext
    by_cases h1n : 1 < Nl[j]
    · rw [hnx _ hnj h1n]
    · have h1e : Nl[j] = 1 := by omega
      rw [h1 j a (by rw [hnj, h1e]) ha]
      intro b hb2
      rw [List.getElem?_eq_none (by omega)] at hb2
      cases hb2

example : accepted [2, 1, 3] [(⟨['a'], 0, 0, 0, none, exPhase 1 2 2 .erk []⟩ : PhaseIn ℚ), ⟨['t'], 1, 1, 1, none, exPhase 2 2 3 .discrete []⟩,
      ⟨['b'], 2, 2, 2, none, exPhase 3 3 3 .irk []⟩] (some [.erk, .discrete, .irk]) .erk true = true
    ∧ ((List.range 7).map fun i => entry (dimWrites [2, 1, 3] [exPhase 1 2 2 .erk [], exPhase 2 2 3 .discrete [], exPhase 3 3 3 .irk []] .nx) i)
      = [some 2, some 2, some 2, some 3, some 3, some 3, some 3]
    ∧ accepted [2, 2, 3] [(⟨['a'], 0, 0, 0, none, exPhase 1 2 2 .erk []⟩ : PhaseIn ℚ), ⟨['t'], 1, 1, 1, none, exPhase 2 2 3 .discrete []⟩,
      ⟨['b'], 2, 2, 2, none, exPhase 3 3 3 .irk []⟩] (some [.erk, .discrete, .irk]) .erk true = false := by decide +kernel

/-- without the proviso the states need not fit: a transition phase of one interval whose map gives a state of another dimension than
the next phase (or the terminal stage) has is accepted if the phases have states of equal dimension -/
theorem C88_transition_false : ∃ (Nl : List Int) (phs : List (PhaseIn ℚ)) (a : PhaseIn ℚ), (∀ n ∈ Nl, 1 ≤ n)
    ∧ accepted Nl phs none .discrete true = true ∧ InPhase Nl 0 0 ∧ phs[0]? = some a
    ∧ entry (dimWrites Nl (phs.map (·.data)) .nx) 1 ≠ some a.data.nxNext :=
  ⟨[1, 1], [⟨['a'], 0, 0, 0, none, exPhase 1 2 3 .discrete []⟩, ⟨['b'], 1, 1, 1, none, exPhase 2 2 2 .discrete []⟩], _,
    by decide, by decide +kernel, by unfold InPhase; decide, rfl, by decide +kernel⟩

/-- names of the models: made pairwise different, kept if they are -/
theorem C88_names (names : List (List Char)) :
    (uniqueNames names).Nodup ∧ (uniqueNames names).length = names.length ∧ (names.Nodup → uniqueNames names = names) := by
  unfold uniqueNames
  split
  · rename_i h
    refine ⟨numbered_nodup names 0, by simp, ?_⟩
    intro hn
    exact absurd (by rw [List.dedup_eq_self.2 hn]) h
  · rename_i h
    refine ⟨?_, rfl, fun _ => rfl⟩
    have := (List.dedup_sublist names).eq_of_length (not_not.1 h)
    rw [← this]
    exact List.nodup_dedup names

example : uniqueNames [['m'], ['m'], ['m', '_', '0']] = [['m', '_', '0'], ['m', '_', '1'], ['m', '_', '0', '_', '2']]
    ∧ uniqueNames [['a'], ['b']] = [['a'], ['b']] := by decide +kernel

/-- setting the parameters of a stage that lies in a phase: ends the process unless the number of values is that of the phase,
otherwise replaces the parameters of this stage only -/
theorem C88_update (Nl : List Int) (phs : List (Phase K)) (hN : ∀ n ∈ Nl, 1 ≤ n) (i : Int) (j : Nat) (ph : Phase K)
    (hi : InPhase Nl i j) (hph : phs[j]? = some ph) (p : List K) (P : Int → List K) :
    (p.length ≠ ph.dims .path .np → updateParams Nl phs i p p.length P = .exit)
    ∧ (p.length = ph.dims .path .np →
      ∃ P', updateParams Nl phs i p p.length P = .ok P' ∧ P' i = p ∧ ∀ k, k ≠ i → P' k = P k) := by
  have := updateParams_eq Nl phs hN i j ph hi hph p p.length P
  constructor
  · intro h
    rw [this, if_pos (fun e => h e.symm)]
  · intro h
    rw [if_neg (by rw [h]; simp), if_neg (by omega)] at this
    refine ⟨_, this, ?_, ?_⟩
    · unfold setAt
      rw [if_pos rfl, ← h, List.take_length]
    · intro k hk
      unfold setAt
      rw [if_neg hk]

example : InPhase [2, 3] 2 1 ∧ [exPhase 1 2 2 .erk [1], exPhase 2 2 2 .irk [3, 4]][1]? = some (exPhase 2 2 2 .irk [3, 4])
    ∧ ([7, 8] : List ℚ).length = (exPhase 2 2 2 .irk [3, 4]).dims .path .np := ⟨by unfold InPhase; decide, rfl, rfl⟩

/-- the number of values is not checked for the terminal stage: fewer values are read beyond the end, more are cut off -/
theorem C88_update_false : ∃ (Nl : List Int) (phs : List (Phase ℚ)) (P : Int → List ℚ), (∀ n ∈ Nl, 1 ≤ n)
    ∧ updateParams Nl phs Nl.sum [7] 1 P = .ub
    ∧ ∃ P', updateParams Nl phs Nl.sum [7, 8, 9] 3 P = .ok P' ∧ P' Nl.sum = [7, 8] := by
  refine ⟨[2, 3], [exPhase 1 2 2 .erk [1], exPhase 2 2 2 .irk [3, 4]], fun _ => [], by decide, ?_, setAt (fun _ => []) 5 [7, 8], ?_, rfl⟩
  · unfold updateParams
    rw [if_neg (by decide +kernel), if_neg (by decide +kernel), if_pos (by decide +kernel)]
  · unfold updateParams
    rw [if_neg (by decide +kernel), if_neg (by decide +kernel), if_neg (by decide +kernel),
      show npAt [2, 3] [exPhase 1 2 2 .erk [1], exPhase 2 2 2 .irk [3, 4]] ([2, 3] : List Int).sum = 2 by decide +kernel]
    rfl

variable [Zero K] [DecidableEq K]

/-- parameter values: creation succeeds, and each stage that lies in a phase has the values of its phase, provided that more than a
tenth of these values are not zero or no phase before it has parameters -/
theorem C88_params_partial (Nl : List Int) (phs : List (Phase K)) (hN : ∀ n ∈ Nl, 1 ≤ n) (hl : phs.length = Nl.length)
    (hp : ∀ ph ∈ phs, ph.p.length = ph.dims .path .np) :
    ∃ P, defaultParams Nl phs = .ok P ∧ ∀ i j ph, InPhase Nl i j → phs[j]? = some ph →
      ph.p.length < 10 * (ph.p.filter (· ≠ 0)).length ∨ (∀ k q, k < j → phs[k]? = some q → q.p = []) → P i = ph.p := by
  obtain ⟨P, h1, _, h3⟩ := defaultParams_eq Nl phs hN hl hp
  refine ⟨P, h1, ?_⟩
  intro i j ph hi hph hcase
  have hm := List.mem_of_getElem? hph
  have hjl : j < phs.length := by
    rw [hl]; exact hi.1
  have hpl := hp ph hm
  have hmax := np_le_max phs ph hm
  rw [h3 i j ph hi hph]
  have htake : phs.take (j + 1) = phs.take j ++ [ph] := by
    rw [List.take_succ_eq_append_getElem hjl]
    rw [List.getElem?_eq_getElem hjl] at hph
    rw [Option.some.inj hph]
  rw [htake, List.foldl_append, List.foldl_cons, List.foldl_nil, ← hpl]
  by_cases hpos : ph.dims .path .np > 0
  · have hst : ∀ b : List K, stepBuf b ph = fillBuf ph b := by
      intro b
      unfold stepBuf
      rw [if_pos hpos]
    rw [hst]
    rcases hcase with hd | hz
    · exact fillBuf_dense ph _ (by unfold dense; simpa using hd)
    · rw [foldl_step_zero]
      · exact fillBuf_zero ph _ (by omega)
      · intro q hq
        obtain ⟨k, hk⟩ := List.mem_iff_getElem?.1 hq
        rw [List.getElem?_take] at hk
        split at hk
        · rename_i hkj
          have := hz k q hkj hk
          rw [← hp q (List.mem_of_getElem? hk), this]
          rfl
        · cases hk
  · have : ph.p = [] := List.length_eq_zero_iff.1 (by omega)
    rw [this]
    rfl

example : (match defaultParams [2, 3] [exPhase 1 2 2 .erk [1], exPhase 2 2 2 .irk [3, 4]] with
    | .ok P => (List.range 6).map fun i => P i
    | _ => []) = [[1], [1], [3, 4], [3, 4], [3, 4], [0, 0]] := by decide +kernel

/-- the values of an earlier phase remain in a later phase whose values are (nearly) all zero, and the terminal stage has zeros
instead of the values of the last phase -/
theorem C88_params_false :
    (∃ (Nl : List Int) (phs : List (Phase ℚ)) (P : Int → List ℚ) (ph : Phase ℚ), (∀ n ∈ Nl, 1 ≤ n) ∧ phs.length = Nl.length
      ∧ (∀ ph ∈ phs, ph.p.length = ph.dims .path .np) ∧ defaultParams Nl phs = .ok P ∧ InPhase Nl 1 1 ∧ phs[1]? = some ph
      ∧ ph.p = [0] ∧ P 1 = [5])
    ∧ ∃ (Nl : List Int) (phs : List (Phase ℚ)) (P : Int → List ℚ) (ph : Phase ℚ), (∀ n ∈ Nl, 1 ≤ n) ∧ phs.length = Nl.length
      ∧ (∀ ph ∈ phs, ph.p.length = ph.dims .path .np) ∧ defaultParams Nl phs = .ok P ∧ phs.getLast? = some ph
      ∧ ph.p = [5] ∧ P Nl.sum = [0] := by
  constructor
  · have hp : ∀ ph ∈ [exPhase 1 2 2 .erk [5], exPhase 2 2 2 .erk [0]], ph.p.length = ph.dims .path .np := by
      intro ph h
      simp only [List.mem_cons, List.not_mem_nil, or_false] at h
      rcases h with rfl | rfl <;> rfl
    obtain ⟨P, h1, _, h3⟩ := defaultParams_eq [1, 1] [exPhase 1 2 2 .erk [5], exPhase 2 2 2 .erk [0]] (by decide) rfl hp
    have hin : InPhase [1, 1] 1 1 := by unfold InPhase; decide
    refine ⟨[1, 1], _, P, exPhase 2 2 2 .erk [0], by decide, rfl, hp, h1, hin, rfl, rfl, ?_⟩
    rw [h3 1 1 _ hin rfl]
    decide +kernel
  · have hp : ∀ ph ∈ [exPhase 1 2 2 .erk [5]], ph.p.length = ph.dims .path .np := by
      intro ph h
      simp only [List.mem_cons, List.not_mem_nil, or_false] at h
      rcases h with rfl
      rfl
    obtain ⟨P, h1, h2, _⟩ := defaultParams_eq [1] [exPhase 1 2 2 .erk [5]] (by decide) rfl hp
    refine ⟨[1], _, P, exPhase 1 2 2 .erk [5], by decide, rfl, hp, h1, rfl, rfl, ?_⟩
    rw [h2]
    decide +kernel

end Acados.MultiPhase
