import Verif.Lemmas.Colloc
import Verif.Spec.Rk
import Verif.Spec.Quadrature
import Mathlib.Tactic.Module
import Mathlib.Data.Nat.Factorial.Basic
/-!
# C39: Butcher tableaus
-/
namespace Acados.Butcher
open Finset Quadrature Polynomial

section
variable {K : Type*} [Field K] [LinearOrder K] [IsStrictOrderedRing K]

/-- `lu_system_solve` solves every linear system with a non-singular matrix, for every dimension and every number of
right-hand sides (column `c`). -/
theorem C39_lu_system_solve (n : Nat) (A B : Nat → Nat → K)
    (hA : ∀ v : Nat → K, (∀ i < n, ∑ k ∈ range n, A i k * v k = 0) → ∀ k < n, v k = 0) (c i : Nat) (hi : i < n) :
    ∑ k ∈ range n, A i k * luSolve n A B k c = B i c := luSolve_solves n A B hA c i hi

/-- non-vacuity: a matrix that needs a row exchange -/
example : let A : Nat → Nat → ℚ := fun i j => if i = 0 then (if j = 0 then 0 else 2) else (if j = 0 then 3 else 1)
    (∀ v : Nat → ℚ, (∀ i < 2, ∑ k ∈ range 2, A i k * v k = 0) → ∀ k < 2, v k = 0) ∧
      luSolve 2 A (fun i _ => if i = 0 then 4 else 5) 0 0 = 1 := by
  refine ⟨fun v hv k hk => ?_, by decide +kernel⟩
  have h0 := hv 0 (by omega)
  have h1 := hv 1 (by omega)
  simp [sum_range_succ] at h0 h1
  interval_cases k
  · rw [h0, add_zero] at h1
    simpa using h1
  · exact h0

end

/-- Collocation: for arbitrary distinct nodes, the coefficients computed from the nodes integrate every polynomial of
degree below the number of stages exactly from 0 to each node, and from 0 to 1.  (In particular a polynomial whose
derivative takes the values `k_i` at the nodes passes through the stage points and the end point.) -/
theorem C39_collocation (ns : Nat) (c : Nat → ℝ) (hc : ∀ i < ns, ∀ j < ns, c i = c j → i = j) (q : ℝ[X])
    (hq : q.degree < ns) :
    (∀ k < ns, ∑ i ∈ range ns, tabA ns c k i * q.eval (c i) = ∫ x in (0 : ℝ)..c k, q.eval x) ∧
    ∑ i ∈ range ns, tabB ns c i * q.eval (c i) = ∫ x in (0 : ℝ)..1, q.eval x :=
  have hc' : Set.InjOn c (Set.Iio ns) := fun i hi j hj => hc i hi j hj
  ⟨fun k _ => tabA_exact ns c hc' q hq k, tabB_exact ns c hc' q hq⟩

/-- consequence: row sums equal the nodes and the weights sum to one -/
theorem C39_row_sums (ns : Nat) (h0 : 0 < ns) (c : Nat → ℝ) (hc : ∀ i < ns, ∀ j < ns, c i = c j → i = j) :
    (∀ k < ns, ∑ i ∈ range ns, tabA ns c k i = c k) ∧ ∑ i ∈ range ns, tabB ns c i = 1 := by
  have h := C39_collocation ns c hc 1 (by
    rw [degree_one]; exact_mod_cast h0)
  simpa using h

example : ∀ i < 3, ∀ j < 3, (fun i : Nat => (i : ℝ) / 2) i = (fun i : Nat => (i : ℝ) / 2) j → i = j := by
  intro i _ j _ h
  have h' : (i : ℝ) / 2 = (j : ℝ) / 2 := h
  have : (i : ℝ) = j := by linarith
  exact_mod_cast this

/-- the tableau of a method whose last node is 1 is stiffly accurate -/
theorem C39_stiffly_accurate (ns : Nat) (c : Nat → ℝ) (h : c (ns - 1) = 1) (i : Nat) :
    tabA ns c (ns - 1) i = tabB ns c i := by
  unfold tabA tabB
  simp only [h, one_pow]

/-! ### Radau IIA -/

/-- node `i` of the Radau table for a list of literals -/
noncomputable def radauNode (l : List ℚ) (i : Nat) : ℝ := ((l.getD i 0 : ℚ) : ℝ)

private theorem radau_cases (P : Nat → List ℚ → Prop) (h : ∀ ns ∈ List.range' 1 9, ∀ l ∈ radau ns, P ns l) (ns : Nat)
    (l : List ℚ) (hl : radau ns = some l) : P ns l := by
  refine h ns ?_ l hl
  rw [List.mem_range'_1]
  rcases Nat.lt_or_ge ns 10 with h1 | h1
  · rcases Nat.eq_zero_or_pos ns with h2 | h2
    · subst h2; cases hl
    · omega
  · exfalso
    obtain ⟨k, rfl⟩ : ∃ k, ns = k + 10 := ⟨ns - 10, by omega⟩
    cases hl

/-- The table covers exactly 1 to 9 stages; the nodes are in `(0, 1]`, strictly increasing, and the last one is 1. -/
theorem C39_radau_nodes (ns : Nat) :
    ((∃ l, radau ns = some l) ↔ 1 ≤ ns ∧ ns ≤ 9) ∧
    ∀ l, radau ns = some l → l.length = ns ∧ (∀ i < ns, ∀ j < i, radauNode l j < radauNode l i) ∧
      (∀ i < ns, 0 < radauNode l i) ∧ radauNode l (ns - 1) = 1 := by
  refine ⟨⟨fun ⟨l, hl⟩ => radau_cases (fun ns _ => 1 ≤ ns ∧ ns ≤ 9) (by
      intro ns hns _ _; rw [List.mem_range'_1] at hns; omega) ns l hl, fun ⟨h1, h2⟩ => ?_⟩, fun l hl => ?_⟩
  · interval_cases ns <;> exact ⟨_, rfl⟩
  · have h := radau_cases (fun ns l => l.length = ns ∧ (∀ i < ns, ∀ j < i, l.getD j 0 < l.getD i 0) ∧
      (∀ i < ns, 0 < l.getD i 0) ∧ l.getD (ns - 1) 0 = 1) (by decide +kernel) ns l hl
    obtain ⟨h1, h2, h3, h4⟩ := h
    refine ⟨h1, fun i hi j hj => ?_, fun i hi => ?_, ?_⟩
    · unfold radauNode; exact_mod_cast h2 i hi j hj
    · unfold radauNode; exact_mod_cast h3 i hi
    · unfold radauNode; rw [h4]; norm_num

/-- The quadrature formula built from the Radau literals integrates every polynomial of degree at most `2 ns - 2` up to
an error of `2e-17` times the size of the coefficients of the quotient by the node polynomial (it would be exact for the
true Radau nodes; the literals are rounded). -/
theorem C39_radau_quadrature (ns : Nat) (l : List ℚ) (hl : radau ns = some l) (p : ℝ[X])
    (hp : p.natDegree ≤ 2 * ns - 2) :
    |∑ i ∈ range ns, tabB ns (radauNode l) i * p.eval (radauNode l i) - ∫ x in (0 : ℝ)..1, p.eval x|
      ≤ 2 / 10 ^ 17 * ∑ m ∈ range (ns - 1), |(p /ₘ nodal ns (radauNode l)).coeff m| := by
  obtain ⟨hlen, hmono, _, _⟩ := (C39_radau_nodes ns).2 l hl
  have hm := radau_cases (fun ns l => ∀ m < ns - 1, |moment l m| ≤ 2 / 10 ^ 17) (by decide +kernel) ns l hl
  have hinj : Set.InjOn (radauNode l) (Set.Iio ns) := by
    intro i hi j hj h
    rcases lt_trichotomy i j with h' | h' | h'
    · exact absurd h (hmono j hj i h').ne
    · exact h'
    · exact absurd h (hmono i hi j h').ne'
  subst hlen
  refine near_exact l _ (l.length - 1) (fun m h => ?_) hinj p ?_
  · have := hm m h
    have h2 : ((|moment l m| : ℚ) : ℝ) ≤ ((2 / 10 ^ 17 : ℚ) : ℝ) := by exact_mod_cast this
    push_cast at h2
    exact h2
  · change (p /ₘ nodal l.length (radauNode l)).degree < _
    by_cases h0 : p /ₘ nodal l.length (radauNode l) = 0
    · rw [h0, degree_zero]; exact WithBot.bot_lt_coe _
    · have hd := natDegree_divByMonic p (nodal_monic l.length (radauNode l))
      have hn : (nodal l.length (radauNode l)).natDegree = l.length :=
        natDegree_eq_of_degree_eq_some (nodal_degree _ _)
      rw [hn] at hd
      have hge : ¬ p.degree < (nodal l.length (radauNode l)).degree := fun h =>
        h0 ((divByMonic_eq_zero_iff (nodal_monic _ _)).2 h)
      rw [nodal_degree, not_lt] at hge
      have hge' : l.length ≤ p.natDegree := le_natDegree_of_coe_le_degree hge
      have hpos : 0 < l.length := by
        have := ((C39_radau_nodes l.length).1.1 ⟨l, hl⟩).1; omega
      rw [← natDegree_lt_iff_degree_lt h0]
      omega

example : ∃ l, radau 9 = some l ∧ l.length = 9 := ⟨_, rfl, rfl⟩

/-! ### Gauss-Legendre -/

/-- The slope used in the node iteration is `(ns+1)/ns` times the derivative of the polynomial whose roots are sought
(so the iteration is a damped Newton method, not Newton's method as the comment says). -/
theorem C39_gauss_slope (ns : Nat) (hns : 0 < ns) (y : ℝ) (hy : y ^ 2 ≠ 1) :
    derLgvm ns y = ((ns : ℝ) + 1) / ns * deriv (fun x => lgvm x ns) y := by
  obtain ⟨n, rfl⟩ : ∃ n, ns = n + 1 := ⟨ns - 1, by omega⟩
  have h1 : deriv (fun x => lgvm x (n + 1)) y = (derivative (leg (n + 1))).eval y := by
    rw [← Polynomial.deriv]
    congr 1
    funext x
    exact (leg_eval x (n + 1)).symm
  have h2 := congrArg (eval y) (leg_deriv n)
  simp only [eval_mul, eval_sub, eval_one, eval_pow, eval_X, eval_C, leg_eval] at h2
  have h3 : (1 : ℝ) - y ^ 2 ≠ 0 := sub_ne_zero.2 (Ne.symm hy)
  have h4 : ((n : ℝ) + 1) ≠ 0 := by positivity
  rw [h1]
  unfold derLgvm
  rw [Nat.add_sub_cancel]
  push_cast
  field_simp
  linear_combination -h2

/-- If the node iteration has converged (each value is a fixed point, none of the slopes vanishes) to `ns` distinct
values, the tableau computed from the mapped nodes integrates every polynomial of degree at most `2 ns - 1` exactly:
the method has the full Gauss-Legendre order. -/
theorem C39_gauss_quadrature (ns : Nat) (hns : 0 < ns) (y : Nat → ℝ)
    (hy : ∀ i < ns, ∀ j < ns, y i = y j → i = j)
    (hfix : ∀ i < ns, nodeStep ns (y i) = y i ∧ derLgvm ns (y i) ≠ 0)
    (p : ℝ[X]) (hp : p.natDegree ≤ 2 * ns - 1) :
    ∑ i ∈ range ns, tabB ns (fun i => nodeMap (y i)) i * p.eval (nodeMap (y i)) = ∫ x in (0 : ℝ)..1, p.eval x := by
  obtain ⟨n, rfl⟩ : ∃ n, ns = n + 1 := ⟨ns - 1, by omega⟩
  have hmap : ∀ z : ℝ, nodeMap z = 1 / 2 * z + 1 / 2 := fun z => by unfold nodeMap; ring
  have hinj : Set.InjOn (fun i => nodeMap (y i)) (Set.Iio (n + 1)) := by
    intro i hi j hj h
    simp only [hmap] at h
    exact hy i hi j hj (by linarith)
  -- the fixed points are roots
  have hroot : ∀ i < n + 1, (leg (n + 1)).eval (y i) = 0 := by
    intro i hi
    obtain ⟨h1, h2⟩ := hfix i hi
    rw [leg_eval]
    unfold nodeStep at h1
    have h3 : lgvm (y i) (n + 1) / derLgvm (n + 1) (y i) = 0 := by linarith
    exact (div_eq_zero_iff.1 h3).resolve_right h2
  rw [quadrature_error (n + 1) _ hinj p]
  simp only [left_eq_add]
  -- node polynomial and Legendre polynomial have the same roots
  set w := nodal (n + 1) (fun i => nodeMap (y i)) with hw
  set q := p /ₘ w with hq
  have hcov : ∫ x in (0 : ℝ)..1, q.eval x * w.eval x
      = 1 / 2 * ∫ z in (-1 : ℝ)..1, q.eval (1 / 2 * z + 1 / 2) * w.eval (1 / 2 * z + 1 / 2) := by
    have := intervalIntegral.mul_integral_comp_mul_add (a := (-1 : ℝ)) (b := 1) (f := fun x => q.eval x * w.eval x) (1 / 2) (1 / 2)
    rw [this]
    norm_num
  -- w (z/2 + 1/2) is a multiple of the Legendre polynomial
  have hwz : ∃ κ : ℝ, ∀ z : ℝ, w.eval (1 / 2 * z + 1 / 2) = κ * (leg (n + 1)).eval z := by
    set v := nodal (n + 1) y with hv
    have hdvd : v ∣ leg (n + 1) := by
      rw [hv]; unfold nodal
      refine Finset.prod_dvd_of_coprime ?_ fun i hi => dvd_iff_isRoot.2 (hroot i (mem_range.1 hi))
      intro i hi j hj hij
      exact isCoprime_X_sub_C_of_isUnit_sub (sub_ne_zero.2 fun h => hij
        (hy i (mem_range.1 hi) j (mem_range.1 hj) h)).isUnit
    obtain ⟨u, hu⟩ := hdvd
    have hne : leg (n + 1) ≠ 0 := by
      intro h
      have := (leg_one n).2
      rw [h, eval_zero] at this
      exact zero_ne_one this
    have hu0 : u ≠ 0 := by rintro rfl; exact hne (by rw [hu, mul_zero])
    have hvd : v.natDegree = n + 1 := natDegree_eq_of_degree_eq_some (nodal_degree _ _)
    have hud : u.natDegree = 0 := by
      have h1 := (leg_degree n).2
      rw [hu, natDegree_mul (nodal_monic _ _).ne_zero hu0, hvd] at h1
      omega
    obtain ⟨a, rfl⟩ := natDegree_eq_zero.1 hud
    have ha : a ≠ 0 := by rintro rfl; exact hu0 (by simp)
    refine ⟨(1 / 2) ^ (n + 1) / a, fun z => ?_⟩
    rw [hu, eval_mul, eval_C, hw, hv]
    unfold nodal
    rw [eval_prod, eval_prod]
    have : ∀ i ∈ range (n + 1), eval (1 / 2 * z + 1 / 2) (X - C (nodeMap (y i))) = 1 / 2 * eval z (X - C (y i)) := by
      intro i _
      rw [hmap]; simp only [eval_sub, eval_X, eval_C]; ring
    rw [prod_congr rfl this, prod_mul_distrib, prod_const, card_range]
    field_simp
  obtain ⟨κ, hκ⟩ := hwz
  rw [hcov]
  simp only [hκ]
  set q' := q.comp (C (1 / 2) * X + C (1 / 2)) with hq'
  have hqe : ∀ z : ℝ, q.eval (1 / 2 * z + 1 / 2) * (κ * (leg (n + 1)).eval z)
      = κ * (q'.eval z * (leg (n + 1)).eval z) := by
    intro z
    rw [hq', eval_comp]
    simp only [eval_add, eval_mul, eval_C, eval_X]
    ring
  simp only [hqe]
  rw [intervalIntegral.integral_const_mul, leg_orth_poly n q', mul_zero, mul_zero]
  -- degree bound
  by_cases h0 : q' = 0
  · rw [h0, degree_zero]; exact WithBot.bot_lt_coe _
  · rw [← natDegree_lt_iff_degree_lt h0]
    have h1 : q'.natDegree ≤ q.natDegree := by
      rw [hq', natDegree_comp]
      have : (C (1 / 2 : ℝ) * X + C (1 / 2)).natDegree ≤ 1 := natDegree_linear_le
      nlinarith [Nat.zero_le q.natDegree]
    have h2 := natDegree_divByMonic p (nodal_monic (n + 1) (fun i => nodeMap (y i)))
    have h3 : (nodal (n + 1) (fun i => nodeMap (y i))).natDegree = n + 1 :=
      natDegree_eq_of_degree_eq_some (nodal_degree _ _)
    rw [h3] at h2
    have h4 : q.natDegree = p.natDegree - (n + 1) := h2
    omega

/-- non-vacuity: the one-stage method (midpoint) -/
example : nodeStep 1 (0 : ℝ) = 0 ∧ derLgvm 1 (0 : ℝ) ≠ 0 := by
  constructor
  · simp [nodeStep, lgvm]
  · simp [derLgvm, lgvm]

/-- non-vacuity: the two-stage method, nodes `∓1/√3` -/
example : let s : ℝ := 1 / Real.sqrt 3
    nodeStep 2 s = s ∧ derLgvm 2 s ≠ 0 ∧ nodeStep 2 (-s) = -s ∧ derLgvm 2 (-s) ≠ 0 ∧ s ≠ -s := by
  have h3 : (0 : ℝ) < Real.sqrt 3 := Real.sqrt_pos.2 (by norm_num)
  have hs0 : (0 : ℝ) < 1 / Real.sqrt 3 := by positivity
  have hsq : (1 / Real.sqrt 3) ^ 2 = (1 : ℝ) / 3 := by
    rw [div_pow, one_pow, Real.sq_sqrt (by norm_num)]
  simp only
  generalize (1 / Real.sqrt 3 : ℝ) = s at hs0 hsq
  have hz : ∀ t : ℝ, t ^ 2 = 1 / 3 → lgvm t 2 = 0 := by
    intro t ht; simp [lgvm]; linarith
  have hd : ∀ t : ℝ, t ≠ 0 → t ^ 2 = 1 / 3 → derLgvm 2 t ≠ 0 := by
    intro t ht0 ht
    unfold derLgvm
    rw [hz t ht, ht, mul_zero, sub_zero]
    simp [lgvm, ht0]; norm_num
  have hneg : (-s) ^ 2 = 1 / 3 := by rw [neg_sq, hsq]
  refine ⟨?_, hd s hs0.ne' hsq, ?_, hd (-s) (by linarith : -s < 0).ne hneg, (by linarith : -s < s).ne'⟩
  · unfold nodeStep; rw [hz s hsq, zero_div, sub_zero]
  · unfold nodeStep; rw [hz (-s) hneg, zero_div, sub_zero]

/-! ### Explicit tableaus -/

/-- The explicit tableaus exist exactly for 1 to 4 stages; they are explicit (strictly lower triangular), their nodes are
the row sums, and they satisfy all order conditions up to the number of stages. -/
theorem C39_explicit {K : Type*} [Field K] [CharZero K] (ns : Nat) :
    ((∃ t, explicit K ns = some t) ↔ 1 ≤ ns ∧ ns ≤ 4) ∧
    ∀ t, explicit K ns = some t →
      (∀ i j, i ≤ j → t.A i j = 0) ∧ (∀ i < ns, ∑ j ∈ range ns, t.A i j = t.c i) ∧
      Rk.OrderConditions ns t.A t.b t.c ns := by
  rcases Nat.lt_or_ge ns 5 with h | h
  · interval_cases ns
    · exact ⟨⟨fun ⟨_, h⟩ => by simp [explicit] at h, fun h => by omega⟩, fun t h => by simp [explicit] at h⟩
    all_goals
      refine ⟨⟨fun _ => by omega, fun _ => ⟨_, rfl⟩⟩, fun t ht => ?_⟩
      simp only [explicit, Option.some.injEq] at ht
      subst ht
      refine ⟨fun i j hij => ?_, fun i hi => ?_, ⟨?_, ?_, ?_, ?_, ?_, ?_, ?_, ?_⟩⟩
      · simp only
        repeat' split
        all_goals first | rfl | omega
      · interval_cases i <;> simp [sum_range_succ] <;> norm_num
      all_goals
        intro hp
        first | omega | (simp [sum_range_succ]; try norm_num)
  · obtain ⟨k, rfl⟩ : ∃ k, ns = k + 5 := ⟨ns - 5, by omega⟩
    exact ⟨⟨fun ⟨_, h⟩ => by simp [explicit] at h, fun h => by omega⟩, fun t h => by simp [explicit] at h⟩

/-- On a linear system `y' = M y` one step with the explicit tableau equals the exponential series truncated after the
power `ns`. -/
theorem C39_explicit_linear {K V : Type*} [Field K] [CharZero K] [AddCommGroup V] [Module K V] (M : V →ₗ[K] V)
    (ns : Nat) (t : Tab K) (ht : explicit K ns = some t) (h : K) (y : V) :
    Rk.step M ns t.A t.b h y = ∑ k ∈ range (ns + 1), (h ^ k / (k.factorial : K)) • (M ^ k) y := by
  have hns := ((C39_explicit (K := K) ns).1.1 ⟨t, ht⟩)
  have hpow : ∀ (k : Nat) (z : V), (M ^ (k + 1)) z = M ((M ^ k) z) := fun k z => by
    rw [pow_succ', Module.End.mul_apply]
  have hz : ∀ z : V, (M ^ 0) z = z := fun z => by rw [pow_zero]; rfl
  obtain ⟨h1, h2⟩ := hns
  interval_cases ns <;>
  · simp only [explicit, Option.some.injEq] at ht
    subst ht
    simp [Rk.step, Rk.stages, Rk.stagePoint, sum_range_succ, Function.update, Nat.factorial, hpow, hz]
    try module

example : ∃ t, explicit ℚ 4 = some t := ⟨_, rfl⟩

end Acados.Butcher
