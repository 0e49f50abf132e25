import Verif.Lemmas.TimeGrid
import Mathlib.Algebra.Order.Ring.Rat
import Mathlib.Algebra.Field.Rat

/-!
# C98: the time grid of a problem description

What `AcadosOcp.make_consistent` makes of `N_horizon`, `tf`, `time_steps`, `shooting_nodes`, `cost_scaling`,
the integrator settings and the condensing options.  `consistent o = some r`: the description with the options
`o` is accepted and `r` are its options afterwards.
-/

namespace Acados.TimeGrid

section
variable {K : Type} [Field K] [LinearOrder K] [IsStrictOrderedRing K]

/-- Without time steps and nodes the grid is uniform: `N` steps `tf / N`, nodes `k tf / N` from 0 to `tf`; the
cost of an interval is scaled with its length, that of the terminal node with 1. -/
theorem C98_uniform (o : Opts K) (hN : o.N ≠ 0) (hs : o.steps = []) (hn : o.nodes = [])
    (hc : o.scaling = none) :
    ∃ r, consistent o = some r ∧ r.N = o.N ∧ r.tf = o.tf ∧ IsGrid o.N o.tf r.steps r.nodes ∧
      (∀ k, k < o.N → r.steps[k]? = some (o.tf / (o.N : K))) ∧
      (∀ k, k ≤ o.N → r.nodes[k]? = some ((k : K) * (o.tf / (o.N : K)))) ∧
      r.scaling = some (r.steps ++ [1]) := by
  have hts := sum_uniform o.N hN o.tf
  have hok : tfOk o.tf (List.replicate o.N (o.tf / (o.N : K))) = true := by
    have := tfOk_self (List.replicate o.N (o.tf / (o.N : K)))
    rwa [hts] at this
  have hnode : ∀ k, k ≤ o.N → (0 :: cumsum 0 (List.replicate o.N (o.tf / (o.N : K))))[k]?
      = some ((k : K) * (o.tf / (o.N : K))) := by
    intro k hk
    rw [nodes_get _ _ _ (by simpa using hk), List.take_replicate, min_eq_left hk, sum_replicate', zero_add]
  have hd : discretize o = some (List.replicate o.N (o.tf / (o.N : K)),
      0 :: cumsum 0 (List.replicate o.N (o.tf / (o.N : K)))) := by
    unfold discretize
    rw [if_neg hN, if_pos ⟨hs, hn⟩]
    dsimp only
    rw [if_pos hok]
  refine ⟨⟨o.N, o.tf, List.replicate o.N (o.tf / (o.N : K)),
    0 :: cumsum 0 (List.replicate o.N (o.tf / (o.N : K))),
    some (List.replicate o.N (o.tf / (o.N : K)) ++ [1])⟩, ?_, rfl, rfl, ?_, ?_, hnode, rfl⟩
  · unfold consistent
    rw [hd, hc]
    simp
  · refine ⟨by simp, nodesMatch_cumsum _ _, rfl, ?_⟩
    have := hnode o.N le_rfl
    have h0 : (o.N : K) ≠ 0 := by exact_mod_cast hN
    rwa [mul_div_cancel₀ _ h0] at this
  · intro k hk
    simp [hk]

example : consistent (K := ℚ) ⟨4, 2, [], [], none⟩
    = some ⟨4, 2, [1/2, 1/2, 1/2, 1/2], [0, 1/2, 1, 3/2, 2], some [1/2, 1/2, 1/2, 1/2, 1]⟩ := by decide +kernel

/-- With time steps of positive sum and the default scaling, a description is accepted iff there are `N` of them
and they do not sum to more than `tf` (up to `1e-13`). -/
theorem C98_steps_accepted_iff (o : Opts K) (hN : o.N ≠ 0) (hs : o.steps ≠ []) (hc : o.scaling = none)
    (hp : 0 < o.steps.sum) :
    (∃ r, consistent o = some r) ↔
      o.steps.length = o.N ∧ o.steps.sum - o.tf ≤ o.steps.sum / 10 ^ 13 := by
  constructor
  · rintro ⟨r, h⟩
    obtain ⟨-, -, ⟨sc, -, hl, hd, -⟩, ht, hcase⟩ := consistent_cases o r h hN
    rcases hcase with ⟨h1, -⟩ | ⟨-, h2, -⟩ | ⟨h1, -⟩
    · exact absurd h1 hs
    · rw [h2] at ht
      have := hd hc
      rw [this, h2] at hl
      exact ⟨by simpa using hl, (tfOk_iff _ _ hp).mp ht⟩
    · exact absurd h1 hs
  · rintro ⟨h1, h2⟩
    refine ⟨_, consistent_steps o hN hs ((tfOk_iff _ _ hp).mpr h2) (o.steps ++ [1]) ?_ (by simp [h1])⟩
    rw [hc]; rfl

example : (⟨2, 3, [1, 2], [], none⟩ : Opts ℚ).steps.length = 2 ∧ ([1, 2] : List ℚ).sum - 3 ≤ [1, 2].sum / 10 ^ 13 := by
  decide +kernel

/-- The time steps the user gives are kept, and the nodes are computed from them, starting at 0. -/
theorem C98_steps_kept (o r : Opts K) (hN : o.N ≠ 0) (hs : o.steps ≠ []) (h : consistent o = some r) :
    r.steps = o.steps ∧ NodesMatch r.steps r.nodes ∧ r.nodes[0]? = some 0 ∧
      r.nodes[r.steps.length]? = some r.steps.sum := by
  obtain ⟨-, -, -, -, hcase⟩ := consistent_cases o r h hN
  rcases hcase with ⟨h1, -⟩ | ⟨-, h2, h3⟩ | ⟨h1, -⟩
  · exact absurd h1 hs
  · refine ⟨h2, ?_, ?_, ?_⟩
    · rw [h3]; exact nodesMatch_cumsum _ _
    · rw [h3]; rfl
    · rw [h3, nodes_get _ _ _ le_rfl]; simp
  · exact absurd h1 hs

example : consistent (K := ℚ) ⟨2, 3, [1, 2], [], none⟩ = some ⟨2, 3, [1, 2], [0, 1, 3], some [1, 2, 1]⟩ := by
  decide +kernel

/-- The shooting nodes the user gives (and no time steps) are kept.  There are `N` time steps, they sum to the
length of the grid, and each is the distance of its nodes, up to `1e-9` of the average step when the steps are
taken to be constant. -/
theorem C98_nodes_kept (o r : Opts K) (hN : o.N ≠ 0) (hs : o.steps = []) (hn : o.nodes ≠ [])
    (hi : Increasing o.nodes) (h : consistent o = some r) :
    r.nodes = o.nodes ∧ r.nodes.length = o.N + 1 ∧ r.steps.length = o.N ∧
      (∀ a b, o.nodes[0]? = some a → o.nodes[o.N]? = some b → r.steps.sum = b - a) ∧
      (NodesMatch r.steps r.nodes ∨
        ∃ avg, 0 < avg ∧ (∀ s ∈ r.steps, s = avg) ∧
          ∀ (k : Nat) (a b : K), o.nodes[k]? = some a → o.nodes[k + 1]? = some b →
            |avg - (b - a)| < avg / 10 ^ 9) := by
  obtain ⟨-, -, -, -, hcase⟩ := consistent_cases o r h hN
  rcases hcase with ⟨-, h1, -⟩ | ⟨h1, -⟩ | ⟨-, -, hl, h2, h3⟩
  · exact absurd h1 hn
  · exact absurd hs h1
  · refine ⟨h3, by rw [h3, hl], by rw [h2, stepsOfNodes_length, hl]; omega, ?_, ?_⟩
    · intro a b ha hb
      rw [h2, stepsOfNodes_sum]
      exact diffs_sum _ _ _ _ hl ha hb
    · rcases stepsOfNodes_cases o.nodes with hd | ⟨avg, e1, e2, e3⟩
      · left
        rw [h2, h3, hd]
        exact nodesMatch_diffs _ hn
      · right
        have hdl : (diffs o.nodes).length = o.N := by rw [diffs_length, hl]; omega
        have hpos : ∀ x ∈ diffs o.nodes, 0 < x := by
          intro x hx
          obtain ⟨k, hk⟩ := List.getElem?_of_mem hx
          have hkl : k < o.N := by
            rw [← hdl]; exact (List.getElem?_eq_some_iff.mp hk).1
          have ha : ∃ a, o.nodes[k]? = some a := ⟨_, List.getElem?_eq_getElem (by omega)⟩
          have hb : ∃ b, o.nodes[k + 1]? = some b := ⟨_, List.getElem?_eq_getElem (by omega)⟩
          obtain ⟨a, ha⟩ := ha
          obtain ⟨b, hb⟩ := hb
          rw [diffs_get _ _ _ _ ha hb] at hk
          have := hi k a b ha hb
          have hx := Option.some.inj hk
          linarith
        have hsum : 0 < (diffs o.nodes).sum := by
          refine sum_pos_of _ ?_ hpos
          intro h0
          rw [h0] at hdl
          exact hN hdl.symm
        have hNp : (0 : K) < ((diffs o.nodes).length : K) := by
          rw [hdl]; exact_mod_cast Nat.pos_of_ne_zero hN
        have havg : 0 < avg := by
          rw [← e1] at hsum
          exact pos_of_mul_pos_left hsum hNp.le
        refine ⟨avg, havg, ?_, ?_⟩
        · intro s hs'
          rw [h2, e2] at hs'
          obtain ⟨_, -, h5⟩ := List.mem_map.mp hs'
          exact h5.symm
        · intro k a b ha hb
          apply e3 havg
          exact List.mem_of_getElem? (diffs_get _ _ _ _ ha hb)

example : consistent (K := ℚ) ⟨3, 6, [], [0, 1, 3, 6], none⟩
    = some ⟨3, 6, [1, 2, 3], [0, 1, 3, 6], some [1, 2, 3, 1]⟩ := by decide +kernel

/-- nodes that are equidistant up to rounding: the steps are averaged, and made exactly equal -/
example : consistent (K := ℚ) ⟨2, 2, [], [0, 1 + 1 / 10 ^ 12, 2], none⟩
    = some ⟨2, 2, [1, 1], [0, 1 + 1 / 10 ^ 12, 2], some [1, 1, 1]⟩ := by decide +kernel

/-- The default cost scaling is the length of the intervals, and 1 at the end; with it, every accepted
description has `N` time steps. -/
theorem C98_scaling_default (o r : Opts K) (hN : o.N ≠ 0) (hc : o.scaling = none)
    (h : consistent o = some r) :
    r.steps.length = o.N ∧ r.scaling = some (r.steps ++ [1]) := by
  obtain ⟨-, -, ⟨sc, hsc, hl, hd, -⟩, -, -⟩ := consistent_cases o r h hN
  rw [hd hc] at hsc hl
  exact ⟨by simpa using hl, hsc⟩

example : consistent (K := ℚ) ⟨2, 3, [1, 1, 1], [], none⟩ = none := by decide +kernel

/-- The given cost scaling is kept; it has an entry for each node. -/
theorem C98_scaling_given (o r : Opts K) (hN : o.N ≠ 0) (s : List K) (hc : o.scaling = some s)
    (h : consistent o = some r) : r.scaling = some s ∧ s.length = o.N + 1 := by
  obtain ⟨-, -, ⟨sc, hsc, hl, -, hg⟩, -, -⟩ := consistent_cases o r h hN
  have := hg s hc
  subst this
  exact ⟨hsc, hl⟩

example : consistent (K := ℚ) ⟨2, 2, [], [], some [1, 1, 5]⟩ = some ⟨2, 2, [1, 1], [0, 1, 2], some [1, 1, 5]⟩ := by
  decide +kernel

/-- The horizon of an accepted grid with positive length is not longer than `tf`, up to `1e-13`.  Partial:
it may be shorter, `C98_short_counterexample`. -/
theorem C98_horizon_partial (o r : Opts K) (hN : o.N ≠ 0) (h : consistent o = some r)
    (hp : 0 < r.steps.sum) : r.steps.sum - o.tf ≤ r.steps.sum / 10 ^ 13 := by
  obtain ⟨-, -, -, ht, -⟩ := consistent_cases o r h hN
  exact (tfOk_iff _ _ hp).mp ht

example : (⟨2, 3, [1, 2], [0, 1, 3], some [1, 2, 1]⟩ : Opts ℚ).steps.sum = 3 := by decide +kernel

/-- A second call changes nothing, if the first had time steps, or neither steps nor nodes. -/
theorem C98_twice_partial (o r : Opts K) (hN : o.N ≠ 0) (hs : o.steps ≠ [] ∨ o.nodes = [])
    (h : consistent o = some r) : consistent r = some r := by
  obtain ⟨e1, e2, ⟨sc, hsc, hl, -, -⟩, ht, hcase⟩ := consistent_cases o r h hN
  have key : r.steps ≠ [] ∧ r.nodes = 0 :: cumsum 0 r.steps := by
    rcases hcase with ⟨-, -, h1, h2⟩ | ⟨h0, h1, h2⟩ | ⟨h0, h1, -⟩
    · refine ⟨?_, h2⟩
      rw [h1]
      simpa using hN
    · exact ⟨by rw [h1]; exact h0, h2⟩
    · rcases hs with hs | hs
      · exact absurd h0 hs
      · exact absurd hs h1
  have := consistent_steps r (by rw [e1]; exact hN) key.1 (by rw [e2]; exact ht) sc
    (by rw [hsc]; rfl) (by rw [e1]; exact hl)
  rw [this]
  obtain ⟨a, b, c, d, e⟩ := r
  simp only at hsc key
  simp [hsc, key.2]

example : consistent (K := ℚ) ⟨2, 3, [1, 2], [0, 1, 3], some [1, 2, 1]⟩
    = some ⟨2, 3, [1, 2], [0, 1, 3], some [1, 2, 1]⟩ := by decide +kernel

/-- A description made consistent is no longer accepted with another `N_horizon`. -/
theorem C98_new_N_rejected (o r : Opts K) (hN : o.N ≠ 0) (h : consistent o = some r) (N' : Nat)
    (hn : N' ≠ o.N) : consistent { r with N := N' } = none := by
  obtain ⟨-, -, ⟨sc, hsc, hl, -, -⟩, -, -⟩ := consistent_cases o r h hN
  unfold consistent
  dsimp only
  cases discretize ({ r with N := N' } : Opts K) with
  | none => rfl
  | some q =>
      rw [Option.bind_some, hsc]
      simp only [Option.getD_some]
      rw [if_pos (by omega)]

example : consistent (K := ℚ) ⟨4, 2, [1, 1], [0, 1, 2], some [1, 1, 1]⟩ = none := by decide +kernel

omit [IsStrictOrderedRing K] in
/-- `N_horizon = 0`: one node at 0, no steps, whatever was given. -/
theorem C98_zero (o : Opts K) (hN : o.N = 0) (hc : o.scaling = none) :
    consistent o = some ⟨0, o.tf, [], [0], some [1]⟩ := by
  have hd : discretize o = some ([], [0]) := by unfold discretize; rw [if_pos hN]
  unfold consistent
  rw [hd, hc]
  simp [hN]

end

/-- **Counterexample** to "the grid covers the horizon `tf`": time steps or nodes that end before `tf` are
accepted, whereas an error is announced for `tf != sum(time_steps)`. -/
theorem C98_short_counterexample :
    (∃ r, consistent (K := ℚ) ⟨2, 10, [1, 1], [], none⟩ = some r ∧ r.tf = 10 ∧ r.steps.sum = 2) ∧
    (∃ r, consistent (K := ℚ) ⟨2, 10, [], [0, 1, 2], none⟩ = some r ∧ r.tf = 10 ∧ r.steps.sum = 2) ∧
    consistent (K := ℚ) ⟨2, 1, [1, 1], [], none⟩ = none :=
  ⟨⟨⟨2, 10, [1, 1], [0, 1, 2], some [1, 1, 1]⟩, by decide +kernel, rfl, by decide +kernel⟩,
   ⟨⟨2, 10, [1, 1], [0, 1, 2], some [1, 1, 1]⟩, by decide +kernel, rfl, by decide +kernel⟩, by decide +kernel⟩

/-- **Counterexample** to "`make_consistent` sees a change of `tf`": a uniform grid that was made for `tf = 2` is
accepted, unchanged, after `tf` has been set to 4. -/
theorem C98_new_tf_counterexample :
    ∃ r, consistent (K := ℚ) ⟨2, 2, [], [], none⟩ = some r ∧
      consistent { r with tf := 4 } = some { r with tf := 4 } ∧ r.steps.sum = 2 :=
  ⟨⟨2, 2, [1, 1], [0, 1, 2], some [1, 1, 1]⟩, by decide +kernel, by decide +kernel, by decide +kernel⟩

/-- **Counterexample** to "an accepted description has `N` time steps": with a given `cost_scaling` the number of
time steps is not checked. -/
theorem C98_length_counterexample :
    ∃ r, consistent (K := ℚ) ⟨2, 3, [1, 1, 1], [], some [1, 1, 1]⟩ = some r ∧ r.N = 2 ∧ r.steps.length = 3 :=
  ⟨⟨2, 3, [1, 1, 1], [0, 1, 2, 3], some [1, 1, 1]⟩, by decide +kernel, rfl, rfl⟩

/-- **Counterexample** to "given shooting nodes are kept": with time steps they are replaced, without a message
and without a comparison. -/
theorem C98_nodes_ignored_counterexample :
    ∃ r, consistent (K := ℚ) ⟨2, 2, [1, 1], [0, 5, 7], none⟩ = some r ∧ r.nodes = [0, 1, 2] :=
  ⟨⟨2, 2, [1, 1], [0, 1, 2], some [1, 1, 1]⟩, by decide +kernel, rfl⟩

/-- **Counterexample** to "a second call changes nothing": nodes that do not start at 0 are kept by the first
call and moved to 0 by the second. -/
theorem C98_twice_counterexample :
    ∃ r q, consistent (K := ℚ) ⟨2, 3, [], [5, 6, 8], none⟩ = some r ∧ r.nodes = [5, 6, 8] ∧
      consistent r = some q ∧ q.nodes = [0, 1, 3] :=
  ⟨⟨2, 3, [1, 2], [5, 6, 8], some [1, 2, 1]⟩, ⟨2, 3, [1, 2], [0, 1, 3], some [1, 2, 1]⟩,
    by decide +kernel, rfl, by decide +kernel, rfl⟩

/-- **Counterexample** to "the time steps are the distances of the nodes": decreasing nodes pass the test for
constant steps, as the average is negative, and are averaged. -/
theorem C98_decreasing_counterexample :
    ∃ r, consistent (K := ℚ) ⟨2, -3, [], [0, -1, -3], none⟩ = some r ∧ r.steps = [-3/2, -3/2] :=
  ⟨⟨2, -3, [-3/2, -3/2], [0, -1, -3], some [-3/2, -3/2, 1]⟩, by decide +kernel, rfl⟩

/-- An integrator setting: accepted iff it is an integer or a vector of one integer, and then it holds on all `N`
intervals, or if it is a vector of `N` integers, and then entry `k` holds on interval `k`. -/
theorem C98_integrator_settings (N : Nat) (s : SimOpt) (l : List ℤ) :
    expand N s = some l ↔
      l.length = N ∧
        ((∃ z : ℤ, (s = .scalar z ∨ s = .array [(z : ℚ)]) ∧ ∀ (k : Nat), k < N → l[k]? = some z) ∨
         (N ≠ 1 ∧ ∃ v, s = .array v ∧ v = l.map (fun z : ℤ => (z : ℚ)))) := by
  have hq : ∀ v : ℚ, v.den = 1 → ((v.num : ℤ) : ℚ) = v := fun v hv => Rat.coe_int_num_of_den_eq_one hv
  have hrep : ∀ z : ℤ, l.length = N → (∀ (k : Nat), k < N → l[k]? = some z) → List.replicate N z = l := by
    intro z hl hk
    apply List.ext_getElem?
    intro k
    by_cases hkN : k < N
    · rw [hk k hkN]; simp [hkN]
    · rw [List.getElem?_eq_none (by simpa using hkN), List.getElem?_eq_none (by omega)]
  have hsc : ∀ v : ℚ, (if v.den = 1 then some (List.replicate N v.num) else none) = some l ↔
      l.length = N ∧ ∃ z : ℤ, v = z ∧ ∀ (k : Nat), k < N → l[k]? = some z := by
    intro v
    constructor
    · intro h
      split at h
      · rename_i hv
        simp only [Option.some.injEq] at h
        subst h
        exact ⟨by simp, v.num, (hq v hv).symm, fun k hk => by simp [hk]⟩
      · exact absurd h (by simp)
    · rintro ⟨h1, z, rfl, h3⟩
      simp only [Rat.den_intCast, if_true, Rat.num_intCast, Option.some.injEq]
      exact hrep z h1 h3
  cases s with
  | scalar v =>
      simp only [expand]
      rw [hsc v]
      constructor
      · rintro ⟨h1, z, h2, h3⟩
        exact ⟨h1, Or.inl ⟨z, Or.inl (by rw [h2]), h3⟩⟩
      · rintro ⟨h1, ⟨z, h2 | h2, h3⟩ | ⟨-, v', h2, -⟩⟩
        · exact ⟨h1, z, by injection h2, h3⟩
        · cases h2
        · cases h2
  | array w =>
      by_cases hw : ∃ v, w = [v]
      · obtain ⟨v, rfl⟩ := hw
        simp only [expand]
        rw [hsc v]
        constructor
        · rintro ⟨h1, z, h2, h3⟩
          exact ⟨h1, Or.inl ⟨z, Or.inr (by rw [h2]), h3⟩⟩
        · rintro ⟨h1, ⟨z, h2 | h2, h3⟩ | ⟨hN, v', h2, h3⟩⟩
          · cases h2
          · injection h2 with h2
            injection h2 with h2
            exact ⟨h1, z, h2, h3⟩
          · injection h2 with h2
            subst h2
            have := congrArg List.length h3
            simp at this
            omega
      · have he : expand N (.array w) =
            if w.length = N ∧ ∀ v ∈ w, v.den = 1 then some (w.map (·.num)) else none := by
          match w, hw with
          | [], _ => rfl
          | [v], hw => exact absurd ⟨v, rfl⟩ hw
          | _ :: _ :: _, _ => rfl
        rw [he]
        constructor
        · intro h
          split at h
          · rename_i hv
            simp only [Option.some.injEq] at h
            subst h
            refine ⟨by simpa using hv.1, Or.inr ⟨?_, w, rfl, ?_⟩⟩
            · intro h1
              rw [h1] at hv
              obtain ⟨v, hv⟩ := List.length_eq_one_iff.mp hv.1
              exact hw ⟨v, hv⟩
            · rw [List.map_map]
              conv_lhs => rw [← List.map_id w]
              apply List.map_congr_left
              intro v hm
              exact (hq v (hv.2 v hm)).symm
          · exact absurd h (by simp)
        · rintro ⟨h1, ⟨z, h2 | h2, h3⟩ | ⟨hN, v, h2, h3⟩⟩
          · cases h2
          · injection h2 with h2
            exact absurd ⟨_, h2⟩ hw
          · injection h2 with h2
            subst h2 h3
            rw [if_pos ⟨by simpa using h1, by
              intro v hv
              obtain ⟨z, -, rfl⟩ := List.mem_map.mp hv
              exact Rat.den_intCast z⟩]
            rw [List.map_map]
            congr 1
            conv_rhs => rw [← List.map_id l]
            apply List.map_congr_left
            intro z _
            simp

example : expand 3 (.scalar 2) = some [2, 2, 2] ∧ expand 3 (.array [4]) = some [4, 4, 4]
    ∧ expand 3 (.array [1, 2, 3]) = some [1, 2, 3] ∧ expand 3 (.array [1, 2]) = none
    ∧ expand 3 (.scalar (1 / 2)) = none ∧ expand 2 (.array [1, 1 / 2]) = none := by decide +kernel

/-- Condensing options that are accepted: `qp_solver_cond_N` is the given one or `N`, at most `N`; the given block
sizes are one for each of the `cond_N + 1` stages and sum to `N`. -/
theorem C98_condensing (N : Nat) (cN : Option Nat) (b : Option (List Nat)) (c : Nat) :
    condN N cN b = some c ↔
      (∀ c', cN = some c' → c = c') ∧ (cN = none → c = N) ∧ c ≤ N ∧
        ∀ l, b = some l → l.length = c + 1 ∧ l.sum = N := by
  unfold condN
  have hc : (∀ c', cN = some c' → c = c') ∧ (cN = none → c = N) ↔ cN.getD N = c := by
    cases cN with
    | none => simp [eq_comm]
    | some d => simp [eq_comm]
  rw [← and_assoc, hc]
  generalize cN.getD N = d
  cases b with
  | none =>
      by_cases hd : d > N
      · simp only [hd, if_true, reduceCtorEq, false_iff]
        rintro ⟨rfl, h, -⟩
        omega
      · simp only [hd, if_false, Option.some.injEq, reduceCtorEq, false_imp_iff, implies_true, and_true]
        constructor
        · rintro rfl; exact ⟨rfl, by omega⟩
        · rintro ⟨h, -⟩; exact h
  | some l =>
      by_cases hd : d > N
      · simp only [hd, if_true, reduceCtorEq, false_iff]
        rintro ⟨rfl, h, -⟩
        omega
      · simp only [hd, if_false, Option.some.injEq, forall_eq']
        by_cases h1 : l.sum = N
        · by_cases h2 : l.length = d + 1
          · simp only [h1, h2, ne_eq, not_true_eq_false, if_false, Option.some.injEq]
            constructor
            · rintro rfl; exact ⟨rfl, by omega, rfl, trivial⟩
            · rintro ⟨h, -⟩; exact h
          · simp only [h1, h2, ne_eq, not_true_eq_false, if_false, not_false_eq_true, if_true, reduceCtorEq, false_iff]
            rintro ⟨rfl, -, h, -⟩
            exact h2 h
        · simp only [h1, ne_eq, not_false_eq_true, if_true, reduceCtorEq, false_iff]
          rintro ⟨rfl, -, -, h⟩
          exact h

example : condN 5 (some 2) (some [2, 2, 1]) = some 2 ∧ condN 5 none none = some 5
    ∧ condN 5 (some 6) none = none ∧ condN 5 (some 2) (some [2, 2]) = none := by decide +kernel

end Acados.TimeGrid
