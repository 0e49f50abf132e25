import Verif.Lemmas.ControlHorizon
import Mathlib.Tactic.IntervalCases
/-!
# C91: problems with a control horizon
-/
namespace Acados.ControlHorizon
variable {X U K : Type} [Field K] [LinearOrder K] [IsStrictOrderedRing K]
open Finset

theorem create_stages (o : Opts K) (Nc nr : Nat) (Nr : Option Nat) (h1 : 1 ≤ Nc) (h2 : Nc < o.N)
    (hr : (Nr = none ∨ Nr = some 0) ∧ nr = o.N - Nc ∨ Nr = some nr ∧ 0 < nr) :
    (create o Nc Nr).1 = .mocp (mk (Nc - 1) (nr + 1) (o.tf / (o.N : K)) (o.tf / (o.N : K) * ((o.N : K) - (Nc : K)) / (nr : K))) := by
  unfold create
  rw [if_neg (by omega)]
  dsimp only
  rw [if_neg (by omega), if_neg (by omega), if_neg (by omega)]
  dsimp only
  rw [Int.toNat_natCast]
  rcases hr with ⟨rfl | rfl, rfl⟩ | ⟨rfl, hn⟩
  · rfl
  · rfl
  · dsimp only
    rw [if_neg (by omega)]
    rfl

/-- which arguments are refused, return the problem itself, or give a multi-phase problem with the stages of the documentation -/
theorem C91_cases (o : Opts K) (Nc : Int) (Nr : Option Nat) (hN : 0 < o.N) :
    ((create o Nc Nr).1 = .raises ↔ Nc ≤ 0 ∨ (o.N : Int) < Nc)
    ∧ ((create o Nc Nr).1 = .same ↔ Nc = o.N)
    ∧ ∀ l, (create o Nc Nr).1 = .mocp l →
        (l.map (·.1)).count .normal = Nc.toNat - 1 ∧ (l.map (·.1)).count .trans = 1
        ∧ ((l.map (·.1)).count .aug = o.N - Nc.toNat + 1 ∨ ∃ n, Nr = some n ∧ n ≠ 0 ∧ (l.map (·.1)).count .aug = n + 1) := by
  have key : ∀ (nr : Nat) (Ts : K), ((stages Ts o.N Nc.toNat nr).map (·.1)).count .normal = Nc.toNat - 1
      ∧ ((stages Ts o.N Nc.toNat nr).map (·.1)).count .trans = 1 ∧ ((stages Ts o.N Nc.toNat nr).map (·.1)).count .aug = nr + 1 := by
    intro nr Ts
    unfold stages
    simp [List.count_replicate]
  unfold create
  rw [if_neg (by omega)]
  dsimp only
  by_cases h1 : Nc = o.N
  · rw [if_pos h1]
    exact ⟨⟨fun h => (by cases h), fun h => (by omega)⟩, ⟨fun _ => h1, fun _ => rfl⟩, fun l h => (by cases h)⟩
  · rw [if_neg h1]
    by_cases h2 : Nc > o.N
    · rw [if_pos h2]
      exact ⟨⟨fun _ => Or.inr h2, fun _ => rfl⟩, ⟨fun h => (by cases h), fun h => absurd h h1⟩, fun l h => (by cases h)⟩
    · rw [if_neg h2]
      by_cases h3 : Nc ≤ 0
      · rw [if_pos h3]
        exact ⟨⟨fun _ => Or.inl h3, fun _ => rfl⟩, ⟨fun h => (by cases h), fun h => absurd h h1⟩, fun l h => (by cases h)⟩
      · rw [if_neg h3]
        refine ⟨⟨fun h => (by cases h), fun h => (by omega)⟩, ⟨fun h => (by cases h), fun h => absurd h h1⟩, ?_⟩
        intro l h
        rcases Nr with _ | n
        · cases h
          exact ⟨(key _ _).1, (key _ _).2.1, Or.inl (key _ _).2.2⟩
        · dsimp only at h
          by_cases hn : n = 0
          · rw [if_pos hn] at h
            cases h
            exact ⟨(key _ _).1, (key _ _).2.1, Or.inl (key _ _).2.2⟩
          · rw [if_neg hn] at h
            cases h
            exact ⟨(key _ _).1, (key _ _).2.1, Or.inr ⟨n, rfl, hn, (key _ _).2.2⟩⟩

/-- for each feasible trajectory of the problem with the last control kept, on the grid with `nr` longer or shorter steps at the end, the
multi-phase problem has a feasible one with the same states, controls and cost, and conversely; with the default number of remaining
stages the grid is the uniform one of the problem.  Proviso: `Nc ≥ 2`, or the initial stage has the constraints and cost of the path -/
theorem C91_equivalent_partial (p : Prob X U K) (o : Opts K) (Nc nr : Nat) (Nr : Option Nat) (h1 : 1 ≤ Nc) (h2 : Nc < o.N)
    (hr : (Nr = none ∨ Nr = some 0) ∧ nr = o.N - Nc ∨ Nr = some nr ∧ 0 < nr) (hc : 2 ≤ Nc ∨ p.C0 = p.C ∧ p.l0 = p.l) :
    ∃ l dt, (create o Nc Nr).1 = .mocp l ∧ l.length = Nc + nr + 1
      ∧ (∀ k < Nc - 1, dt k = o.tf / (o.N : K)) ∧ (∀ k, Nc - 1 ≤ k → dt k = o.tf / (o.N : K) * ((o.N : K) - (Nc : K)) / (nr : K))
      ∧ (nr = o.N - Nc → Nc + nr = o.N ∧ ∀ k, dt k = o.tf / (o.N : K))
      ∧ (∀ x u, Feasible p (Nc + nr) dt x u → Held Nc (Nc + nr) u →
          ∃ x' v', MFeasible p l x' v' u ∧ (∀ k < Nc, x' k = x k) ∧ (∀ k, Nc ≤ k → k ≤ Nc + nr + 1 → x' k = x (k - 1))
            ∧ mcost p l x' v' u = cost p (Nc + nr) dt x u)
      ∧ ∀ x' v' u', MFeasible p l x' v' u' →
          ∃ x u, Feasible p (Nc + nr) dt x u ∧ Held Nc (Nc + nr) u ∧ (∀ k < Nc, u k = u' k)
            ∧ (∀ k < Nc, x k = x' k) ∧ (∀ k, Nc ≤ k → k ≤ Nc + nr → x k = x' (k + 1))
            ∧ cost p (Nc + nr) dt x u = mcost p l x' v' u' := by
  refine ⟨_, grid (Nc - 1) (o.tf / (o.N : K)) (o.tf / (o.N : K) * ((o.N : K) - (Nc : K)) / (nr : K)), create_stages o Nc nr Nr h1 h2 hr, ?_, ?_, ?_, ?_, ?_⟩
  · rw [mk_length]; omega
  · intro k hk
    rw [grid, if_pos hk]
  · intro k hk
    rw [grid, if_neg (by omega)]
  · intro h
    refine ⟨by omega, ?_⟩
    intro k
    rw [grid, h, ratio _ _ _ h2]
    split <;> rfl
  generalize o.tf / (o.N : K) * ((o.N : K) - (Nc : K)) / (nr : K) = b
  generalize o.tf / (o.N : K) = a
  have hc' : 1 ≤ Nc - 1 ∨ p.C0 = p.C ∧ p.l0 = p.l := hc.imp_left (fun h => (by omega))
  rw [show Nc + nr = (Nc - 1) + (nr + 1) by omega]
  constructor
  · intro x u hf hh
    have := forward p (Nc - 1) (nr + 1) a b hc' x u (by omega) hf (fun k hk1 hk2 => hh k hk1 hk2)
    refine ⟨_, _, this.1, ?_, ?_, this.2⟩
    · intro k hk
      unfold shift
      rw [if_pos (by omega)]
    · intro k hk _
      unfold shift
      rw [if_neg (by omega)]
  · intro x' v' u' hf
    have := backward p (Nc - 1) (nr + 1) a b hc' x' v' u' hf
    refine ⟨_, _, this.1, ?_, ?_, ?_, ?_, this.2⟩
    · intro k hk1 hk2
      show u' _ = u' _
      rw [min_eq_right hk1, min_self]
    · intro k hk
      show u' _ = u' _
      rw [min_eq_left (by omega)]
    · intro k hk
      unfold unshift
      split
      · rfl
      · have h3 := ((mfeas_iff p _ _ _ _ _ _ _).1 hf).2.2.1.1
        rw [show k = Nc - 1 by omega]
        exact h3
    · intro k hk _
      unfold unshift
      rw [if_neg (by omega)]

omit [LinearOrder K] [IsStrictOrderedRing K] in
/-- the third phase integrates the same equations: explicit Runge-Kutta, implicit Runge-Kutta, discrete -/
theorem C91_integrator {V W : Type} [AddCommGroup V] [Module K V] [AddCommGroup W] [Module K W] (s : Nat) (A : Nat → Nat → K) (b : Nat → K) (h : K) :
    (∀ (f : V → W → V) (n : Nat) (x : V) (v : W), rk s A b h (augExpl f) n (x, v) = (rk s A b h (fun z => f z v) n x, v))
    ∧ (∀ (F : V → V → W → V) (x : V) (v : W) (ks : Nat → V × W),
        IrkStages s A h (augImpl F) (x, v) ks ↔ (∀ i < s, (ks i).2 = 0) ∧ IrkStages s A h (fun d z => F d z v) x (fun i => (ks i).1))
    ∧ ∀ (f : V → W → V) (x : V) (v : W), augDisc f (x, v) = (f x v, v) := by
  refine ⟨?_, ?_, fun f x v => rfl⟩
  · intro f n x v
    have hs : ∀ (y : V) (m i : Nat), rkStages A h (augExpl f) (y, v) m i = (rkStages A h (fun z => f z v) y m i, 0) := by
      intro y m
      induction m with
      | zero => intro i; rfl
      | succ m ih =>
        intro i
        unfold rkStages
        dsimp only
        split
        · have e : ((y, v) : V × W) + h • ∑ j ∈ range m, A m j • rkStages A h (augExpl f) (y, v) m j
              = (y + h • ∑ j ∈ range m, A m j • rkStages A h (fun z => f z v) y m j, v) := by
            apply Prod.ext
            · simp only [Prod.fst_add, Prod.smul_fst, Prod.fst_sum, ih]
            · simp only [Prod.snd_add, Prod.smul_snd, Prod.snd_sum, ih, smul_zero, sum_const_zero, add_zero]
          rw [e]
          rfl
        · exact ih i
    have h1 : ∀ y : V, rkStep s A b h (augExpl f) (y, v) = (rkStep s A b h (fun z => f z v) y, v) := by
      intro y
      unfold rkStep
      apply Prod.ext
      · simp only [Prod.fst_add, Prod.smul_fst, Prod.fst_sum, hs]
      · simp only [Prod.snd_add, Prod.smul_snd, Prod.snd_sum, hs, smul_zero, sum_const_zero, add_zero]
    unfold rk
    induction n generalizing x with
    | zero => rfl
    | succ n ih => rw [Function.iterate_succ_apply, Function.iterate_succ_apply, h1, ih]
  · intro F x v ks
    have hkey : (∀ i < s, (ks i).2 = 0) → ∀ i, ((x, v) : V × W) + h • ∑ j ∈ range s, A i j • ks j = (x + h • ∑ j ∈ range s, A i j • (ks j).1, v) := by
      intro h0 i
      apply Prod.ext
      · simp only [Prod.fst_add, Prod.smul_fst, Prod.fst_sum]
      · have : ∑ j ∈ range s, A i j • (ks j).2 = 0 := sum_eq_zero fun j hj => by rw [h0 j (mem_range.1 hj), smul_zero]
        simp only [Prod.snd_add, Prod.smul_snd, Prod.snd_sum, this, smul_zero, add_zero]
    unfold IrkStages
    constructor
    · intro hk
      have h0 : ∀ i < s, (ks i).2 = 0 := fun i hi => congrArg Prod.snd (hk i hi)
      refine ⟨h0, fun i hi => ?_⟩
      have := hk i hi
      rw [hkey h0 i] at this
      exact congrArg Prod.fst this
    · rintro ⟨h0, hk⟩ i hi
      rw [hkey h0 i]
      exact Prod.ext (hk i hi) (h0 i hi)

/-- length of the horizon: it is `tf` with the default number of remaining stages only; with fewer the horizon is longer and the problem is
refused when it is made consistent (up to the tolerance of the check), with more the horizon is shorter and the problem is accepted -/
theorem C91_time (o : Opts K) (Nc Nr : Nat) (htf : 0 < o.tf) (h1 : 1 ≤ Nc) (h2 : Nc < o.N) (h3 : 0 < Nr) :
    ∃ l, (create o Nc (some Nr)).1 = .mocp l
      ∧ ((l.map (·.2)).sum = o.tf ↔ Nr = o.N - Nc)
      ∧ (o.tf < (l.map (·.2)).sum ↔ Nr < o.N - Nc)
      ∧ (o.N - Nc ≤ Nr → (makeConsistent l o).isSome)
      ∧ (makeConsistent l o = none ↔ o.tf + (l.map (·.2)).sum / 10 ^ 13 < (l.map (·.2)).sum) := by
  have hN : (0 : K) < (o.N : K) := by exact_mod_cast (by omega : 0 < o.N)
  have hR : (0 : K) < (Nr : K) := by exact_mod_cast h3
  refine ⟨stages (o.tf / (o.N : K)) o.N Nc Nr, ?_, ?_⟩
  · unfold create
    rw [if_neg (by omega)]
    dsimp only
    rw [if_neg (by omega), if_neg (by omega), if_neg (by omega), if_neg (by omega)]
    rfl
  have hd : (0 : K) < (o.N : K) - (Nc : K) := by
    have : (Nc : K) < (o.N : K) := by exact_mod_cast h2
    linarith
  have esum : ((stages (o.tf / (o.N : K)) o.N Nc Nr).map (·.2)).sum
      = o.tf + o.tf / (o.N : K) / (Nr : K) * (((o.N : K) - (Nc : K)) - (Nr : K)) := by
    rw [stages_sum, Nat.cast_sub h1, Nat.cast_one]
    field_simp
    ring
  have hpos : (0 : K) < o.tf / (o.N : K) / (Nr : K) := div_pos (div_pos htf hN) hR
  have hsumpos : (0 : K) < ((stages (o.tf / (o.N : K)) o.N Nc Nr).map (·.2)).sum := by
    rw [stages_sum]
    have e1 : (0 : K) ≤ ((Nc - 1 : Nat) : K) * (o.tf / (o.N : K)) := mul_nonneg (Nat.cast_nonneg _) (div_pos htf hN).le
    have e2 : (0 : K) < ((Nr : K) + 1) * (o.tf / (o.N : K) * ((o.N : K) - (Nc : K)) / (Nr : K)) :=
      mul_pos (by linarith) (div_pos (mul_pos (div_pos htf hN) hd) hR)
    linarith
  have ecast : ((o.N - Nc : Nat) : K) = (o.N : K) - (Nc : K) := Nat.cast_sub h2.le
  have hlt : o.tf < ((stages (o.tf / (o.N : K)) o.N Nc Nr).map (·.2)).sum ↔ Nr < o.N - Nc := by
    rw [esum]
    constructor
    · intro h
      have h4 : 0 < o.tf / (o.N : K) / (Nr : K) * (((o.N : K) - (Nc : K)) - (Nr : K)) := by linarith
      have h5 := (mul_pos_iff_of_pos_left hpos).1 h4
      have : (Nr : K) < ((o.N - Nc : Nat) : K) := by rw [ecast]; linarith
      exact_mod_cast this
    · intro h
      have : (Nr : K) < ((o.N - Nc : Nat) : K) := by exact_mod_cast h
      rw [ecast] at this
      have := mul_pos hpos (show 0 < (o.N : K) - (Nc : K) - (Nr : K) by linarith)
      linarith
  refine ⟨?_, hlt, ?_, ?_⟩
  · rw [esum]
    constructor
    · intro h
      have h4 : o.tf / (o.N : K) / (Nr : K) * (((o.N : K) - (Nc : K)) - (Nr : K)) = 0 := by linarith
      have h5 := (mul_eq_zero.1 h4).resolve_left hpos.ne'
      have : (Nr : K) = ((o.N - Nc : Nat) : K) := by rw [ecast]; linarith
      exact_mod_cast this
    · intro h
      have : (Nr : K) = ((o.N - Nc : Nat) : K) := by exact_mod_cast h
      rw [this, ecast]
      ring
  · intro h
    unfold makeConsistent
    dsimp only
    rw [if_neg]
    · rfl
    · rw [gt_iff_lt, not_lt]
      refine le_trans (div_nonpos_of_nonpos_of_nonneg ?_ hsumpos.le) (by positivity)
      have := (not_congr hlt).2 (by omega)
      linarith
  · unfold makeConsistent
    dsimp only
    rw [ite_eq_left_iff]
    have : ∀ q : Prop, (¬ q → some ({ o with N := (stages (o.tf / (o.N : K)) o.N Nc Nr).length } : Opts K) = none) ↔ q := by
      intro q
      constructor
      · intro h; by_contra hq; cases h hq
      · intro hq hn; exact absurd hq hn
    rw [this, gt_iff_lt, lt_div_iff₀ hsumpos]
    constructor
    · intro h; linarith
    · intro h; linarith

/-- a problem: `x' = x + dt u`, controls at most `2`, no other constraints, terminal cost `x` -/
def exProb : Prob ℚ ℚ ℚ :=
  ⟨fun dt x u => x + dt * u, fun x => x = 0, fun u => u ≤ 2, fun _ _ => True, fun x _ => x ≤ 10, fun _ => True, fun _ _ => 0, fun x u => x + u, fun x => x⟩

/-- four stages, control horizon of two -/
example : (create (⟨4, 4, none⟩ : Opts ℚ) 2 none).1 = .mocp [(.normal, 1), (.trans, 0), (.aug, 1), (.aug, 1), (.aug, 1)] := by
  decide +kernel

/-- a feasible trajectory with the last control held -/
example : Feasible exProb 4 (fun _ => (4 : ℚ) / (4 : Nat)) (fun k => match k with | 0 => 0 | 1 => 2 | 2 => 3 | 3 => 4 | _ => 5) (fun k => if k = 0 then 2 else 1)
    ∧ Held 2 4 (fun k => if k = 0 then (2 : ℚ) else 1) := by
  refine ⟨⟨rfl, ?_, ?_, ?_, trivial⟩, ?_⟩
  · intro k hk
    interval_cases k <;> norm_num [exProb]
  · intro k hk
    interval_cases k <;> norm_num [exProb]
  · intro k hk
    interval_cases k <;> norm_num [exProb]
  · intro k hk1 hk2
    interval_cases k <;> norm_num

/-- documentation: with `Nr = 0` the problem itself is returned, and the default is used only if `Nr` is not given; with fewer remaining
stages the horizon is kept.  Refuted: `Nr = 0` gives the default multi-phase problem; ten stages, control horizon `2`, four remaining
stages give a horizon of `11` instead of `10`, which is refused, eight give shorter than `10` only if more than the default -/
theorem C91_remaining_false :
    (∃ l, (create (⟨10, 10, none⟩ : Opts ℚ) 2 (some 0)).1 = .mocp l ∧ l.length = 11)
    ∧ (∃ l, (create (⟨10, 10, none⟩ : Opts ℚ) 2 (some 4)).1 = .mocp l ∧ (l.map (·.2)).sum = 11 ∧ makeConsistent l (⟨10, 10, none⟩ : Opts ℚ) = none)
    ∧ ∃ l, (create (⟨10, 10, none⟩ : Opts ℚ) 2 (some 16)).1 = .mocp l ∧ (l.map (·.2)).sum = 19 / 2 ∧ (makeConsistent l (⟨10, 10, none⟩ : Opts ℚ)).isSome := by
  refine ⟨⟨_, rfl, by decide +kernel⟩, ⟨_, rfl, by decide +kernel, ?_⟩, ⟨_, rfl, by decide +kernel, by decide +kernel⟩⟩
  have : (makeConsistent (stages ((10 : ℚ) / (10 : Nat)) 10 2 4) (⟨10, 10, none⟩ : Opts ℚ)).isNone = true := by decide +kernel
  exact Option.isNone_iff_eq_none.1 this

/-- a grid given by the user is replaced by a uniform one -/
theorem C91_grid_false : ∃ (o : Opts ℚ) (l : List (Kind × ℚ)), o.steps = some [1, 2, 3, 4] ∧ o.tf = 10 ∧ (create o 3 none).1 = .mocp l
    ∧ l.map (·.2) = [5 / 2, 5 / 2, 0, 5 / 2, 5 / 2] :=
  ⟨⟨4, 10, some [1, 2, 3, 4]⟩, _, rfl, rfl, rfl, by decide +kernel⟩

/-- the given problem is changed: its time steps no longer fit its number of stages, and once the multi-phase problem has been made
consistent its number of stages is larger, so the same call gives other time steps -/
theorem C91_given_problem_false : ∃ (o o' : Opts ℚ) (l l' : List (Kind × ℚ)),
    create o 2 none = (.mocp l, { o with steps := some (l.map (·.2)) }) ∧ o.steps = none ∧ (l.map (·.2)).length = o.N + 1
    ∧ makeConsistent l (create o 2 none).2 = some o' ∧ (create o' 2 none).1 = .mocp l' ∧ l.map (·.2) = [1, 0, 1, 1, 1]
    ∧ l'.map (·.2) = [4 / 5, 0, 4 / 5, 4 / 5, 4 / 5, 4 / 5] := by
  refine ⟨⟨4, 4, none⟩, ⟨5, 4, some [1, 0, 1, 1, 1]⟩, [(.normal, 1), (.trans, 0), (.aug, 1), (.aug, 1), (.aug, 1)],
    [(.normal, 4 / 5), (.trans, 0), (.aug, 4 / 5), (.aug, 4 / 5), (.aug, 4 / 5), (.aug, 4 / 5)], by decide +kernel, rfl, rfl, by decide +kernel,
    by decide +kernel, rfl, rfl⟩

/-- with a control horizon of one interval the constraints and the cost of the initial stage are lost: the path constraints and cost are
used for it -/
theorem C91_first_stage_false : ∃ (p : Prob ℚ ℚ ℚ) (l : List (Kind × ℚ)) (x : Nat → ℚ) (v u : Nat → ℚ),
    (create (⟨2, 2, none⟩ : Opts ℚ) 1 none).1 = .mocp l ∧ MFeasible p l x v u
    ∧ ∀ x' u' : Nat → ℚ, x' 0 = x 0 → u' 0 = u 0 → ¬ Feasible p 2 (fun _ => 1) x' u' := by
  refine ⟨⟨fun dt x u => x + dt * u, fun x => x = 0, fun _ => True, fun _ u => u ≤ 0, fun _ _ => True, fun _ => True, fun _ _ => 0, fun _ _ => 0, fun x => x⟩,
    [(.trans, 0), (.aug, 1), (.aug, 1)], fun k => ((k - 1 : Nat) : ℚ), fun _ => 1, fun _ => 1, ?_, ?_, ?_⟩
  · norm_num [create, stages, List.replicate]
  · refine ⟨by norm_num, ?_, trivial⟩
    intro k s hs
    match k, hs with
    | 0, hs => cases hs; exact ⟨rfl, rfl, trivial⟩
    | 1, hs => cases hs; exact ⟨by norm_num, rfl, trivial⟩
    | 2, hs => cases hs; exact ⟨by norm_num, rfl, trivial⟩
    | k + 3, hs => cases hs
  · intro x' u' h1 h2 h
    have := h.2.2.2.1 0 (by norm_num)
    rw [if_pos rfl, h2] at this
    norm_num at this

end Acados.ControlHorizon
