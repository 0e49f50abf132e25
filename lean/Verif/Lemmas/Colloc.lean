import Verif.Lemmas.Butcher
import Verif.Spec.Quadrature
import Mathlib.LinearAlgebra.Vandermonde
import Mathlib.Algebra.Polynomial.Eval.Degree
import Mathlib.Algebra.Polynomial.Div
import Mathlib.Algebra.Polynomial.Derivative
import Mathlib.Analysis.SpecialFunctions.Integrals.Basic
import Mathlib.Analysis.Calculus.Deriv.Polynomial
import Mathlib.Topology.Algebra.Polynomial
/-!
# Collocation coefficients: interpolation, exactness, Legendre polynomials
-/
namespace Acados.Butcher
open Finset Quadrature
section
variable {K : Type*} [Field K] [LinearOrder K] [IsStrictOrderedRing K]

theorem vandermonde_nonsingular (ns : Nat) (c : Nat → K) (hc : Set.InjOn c (Set.Iio ns)) :
    Nonsingular (vandermonde c) ns := by
  intro v hv k hk
  have hdet : (Matrix.vandermonde (fun i : Fin ns => c i)).det ≠ 0 :=
    Matrix.det_vandermonde_ne_zero_iff.2 fun i j h => Fin.ext (hc i.2 j.2 h)
  have := Matrix.eq_zero_of_mulVec_eq_zero hdet (v := fun i : Fin ns => v i) (by
    funext i
    simp only [Matrix.mulVec, dotProduct, Matrix.vandermonde_apply, Pi.zero_apply]
    rw [← hv i i.2, ← Fin.sum_univ_eq_sum_range (fun k => vandermonde c i k * v k)]
    rfl)
  exact congrFun this ⟨k, hk⟩

theorem coef_right (ns : Nat) (c : Nat → K) (hc : Set.InjOn c (Set.Iio ns)) (r i : Nat) (hr : r < ns) :
    ∑ j ∈ range ns, c r ^ j * coef ns c j i = if r = i then 1 else 0 :=
  luSolve_solves ns (vandermonde c) (fun r k => if r = k then 1 else 0) (vandermonde_nonsingular ns c hc) i r hr

theorem coef_left (ns : Nat) (c : Nat → K) (hc : Set.InjOn c (Set.Iio ns)) (j l : Nat) (hj : j < ns) (hl : l < ns) :
    ∑ i ∈ range ns, coef ns c j i * c i ^ l = if j = l then 1 else 0 := by
  have h : (Matrix.of fun r j : Fin ns => c r ^ (j : Nat)) * (Matrix.of fun j i : Fin ns => coef ns c j i) = 1 := by
    ext r i
    rw [Matrix.mul_apply]
    simp only [Matrix.of_apply]
    rw [Fin.sum_univ_eq_sum_range (fun j => c r ^ j * coef ns c j i), coef_right ns c hc r i r.2, Matrix.one_apply]
    simp only [Fin.ext_iff]
  have h2 := mul_eq_one_comm.1 h
  have h3 := congrFun (congrFun h2 ⟨j, hj⟩) ⟨l, hl⟩
  rw [Matrix.mul_apply, Matrix.one_apply] at h3
  simp only [Matrix.of_apply, Fin.mk.injEq] at h3
  rw [← h3, Fin.sum_univ_eq_sum_range (fun i => coef ns c j i * c i ^ l)]

/-- weights `∑_j g_j L_ij` integrate every polynomial exactly whose monomials integrate to `g_j` -/
theorem weights_exact (ns : Nat) (c : Nat → K) (hc : Set.InjOn c (Set.Iio ns)) (g a : Nat → K) :
    ∑ i ∈ range ns, (∑ j ∈ range ns, g j * coef ns c j i) * (∑ l ∈ range ns, a l * c i ^ l)
      = ∑ l ∈ range ns, g l * a l := by
  have h : ∀ i, (∑ j ∈ range ns, g j * coef ns c j i) * (∑ l ∈ range ns, a l * c i ^ l)
      = ∑ j ∈ range ns, ∑ l ∈ range ns, g j * a l * (coef ns c j i * c i ^ l) := by
    intro i
    rw [sum_mul_sum]
    exact sum_congr rfl fun j _ => sum_congr rfl fun l _ => by ring
  simp only [h]
  rw [sum_comm]
  refine sum_congr rfl fun j hj => ?_
  rw [sum_comm]
  have h2 : ∀ l ∈ range ns, ∑ i ∈ range ns, g j * a l * (coef ns c j i * c i ^ l) = if j = l then g j * a l else 0 := by
    intro l hl
    rw [← mul_sum, coef_left ns c hc j l (mem_range.1 hj) (mem_range.1 hl)]
    split <;> simp
  rw [sum_congr rfl h2, sum_ite_eq, if_pos hj]

end

section Real
open Polynomial

theorem integral_sum (n : Nat) (a : Nat → ℝ) (t : ℝ) :
    ∫ x in (0 : ℝ)..t, ∑ l ∈ range n, a l * x ^ l = ∑ l ∈ range n, t ^ (l + 1) / ((l : ℝ) + 1) * a l := by
  rw [intervalIntegral.integral_finsetSum fun i _ => (by fun_prop : Continuous fun x : ℝ => a i * x ^ i).intervalIntegrable _ _]
  refine sum_congr rfl fun l _ => ?_
  rw [intervalIntegral.integral_const_mul, integral_pow]
  rw [zero_pow (by omega)]
  ring

theorem eval_range (q : ℝ[X]) (n : Nat) (hq : q.degree < n) (x : ℝ) : q.eval x = ∑ l ∈ range n, q.coeff l * x ^ l := by
  rcases Nat.eq_zero_or_pos n with h0 | h0
  · subst h0
    have : q = 0 := by
      rw [← degree_eq_bot]
      rw [Nat.cast_zero] at hq
      exact Nat.WithBot.lt_zero_iff.1 hq
    simp [this]
  · refine eval_eq_sum_range' ?_ x
    by_cases h : q = 0
    · rw [h, natDegree_zero]; exact h0
    · exact (natDegree_lt_iff_degree_lt h).2 hq

theorem tabA_exact (ns : Nat) (c : Nat → ℝ) (hc : Set.InjOn c (Set.Iio ns)) (q : ℝ[X]) (hq : q.degree < ns) (k : Nat) :
    ∑ i ∈ range ns, tabA ns c k i * q.eval (c i) = ∫ x in (0 : ℝ)..c k, q.eval x := by
  simp only [eval_range q ns hq]
  rw [integral_sum, ← weights_exact ns c hc (fun l => c k ^ (l + 1) / ((l : ℝ) + 1)) q.coeff]
  rfl

theorem tabB_exact (ns : Nat) (c : Nat → ℝ) (hc : Set.InjOn c (Set.Iio ns)) (q : ℝ[X]) (hq : q.degree < ns) :
    ∑ i ∈ range ns, tabB ns c i * q.eval (c i) = ∫ x in (0 : ℝ)..1, q.eval x := by
  simp only [eval_range q ns hq]
  rw [integral_sum]
  simp only [one_pow]
  rw [← weights_exact ns c hc (fun l => 1 / ((l : ℝ) + 1)) q.coeff]
  rfl

theorem nodal_monic (ns : Nat) (c : Nat → ℝ) : (nodal ns c).Monic := monic_prod_of_monic _ _ fun _ _ => monic_X_sub_C _

theorem nodal_degree (ns : Nat) (c : Nat → ℝ) : (nodal ns c).degree = ns := by
  unfold nodal
  rw [degree_prod]
  simp

theorem nodal_eval (ns : Nat) (c : Nat → ℝ) (i : Nat) (hi : i < ns) : (nodal ns c).eval (c i) = 0 := by
  unfold nodal
  rw [eval_prod]
  exact prod_eq_zero (mem_range.2 hi) (by simp)

/-- the quadrature error only sees the part of the integrand that is a multiple of the node polynomial -/
theorem quadrature_error (ns : Nat) (c : Nat → ℝ) (hc : Set.InjOn c (Set.Iio ns)) (p : ℝ[X]) :
    ∫ x in (0 : ℝ)..1, p.eval x
      = ∑ i ∈ range ns, tabB ns c i * p.eval (c i)
        + ∫ x in (0 : ℝ)..1, (p /ₘ nodal ns c).eval x * (nodal ns c).eval x := by
  have hdiv := modByMonic_add_div p (nodal ns c)
  have hr : (p %ₘ nodal ns c).degree < ns := by
    rw [← nodal_degree ns c]; exact degree_modByMonic_lt _ (nodal_monic ns c)
  have h1 : ∀ i ∈ range ns, tabB ns c i * p.eval (c i) = tabB ns c i * (p %ₘ nodal ns c).eval (c i) := by
    intro i hi
    conv_lhs => rw [← hdiv]
    rw [eval_add, eval_mul, nodal_eval ns c i (mem_range.1 hi), zero_mul, add_zero]
  rw [sum_congr rfl h1, tabB_exact ns c hc _ hr, ← intervalIntegral.integral_add]
  · refine intervalIntegral.integral_congr fun x _ => ?_
    conv_lhs => rw [← hdiv]
    rw [eval_add, eval_mul, mul_comm (eval x (nodal ns c))]
  · exact ((p %ₘ nodal ns c).continuous).intervalIntegrable _ _
  · exact (((p /ₘ nodal ns c).continuous).mul ((nodal ns c).continuous)).intervalIntegrable _ _

/-- coefficient of degree `l` of the node polynomial, from the list of nodes -/
def nodalCoef : List ℚ → Nat → ℚ
  | [], l => if l = 0 then 1 else 0
  | c :: cs, l => (if l = 0 then 0 else nodalCoef cs (l - 1)) - c * nodalCoef cs l

theorem nodalCoef_zero (cs : List ℚ) (l : Nat) (h : cs.length < l) : nodalCoef cs l = 0 := by
  induction cs generalizing l with
  | nil => simp only [List.length_nil] at h; simp [nodalCoef, show l ≠ 0 by omega]
  | cons c cs ih =>
    simp only [List.length_cons] at h
    rw [nodalCoef, if_neg (by omega), ih _ (by omega), ih _ (by omega)]
    ring

theorem nodal_cons (c : ℚ) (cs : List ℚ) :
    nodal (c :: cs).length (fun i => (((c :: cs).getD i 0 : ℚ) : ℝ))
      = nodal cs.length (fun i => ((cs.getD i 0 : ℚ) : ℝ)) * (X - C (c : ℝ)) := by
  unfold nodal
  rw [List.length_cons, prod_range_succ']
  rfl

theorem nodal_sum (cs : List ℚ) (x : ℝ) :
    (nodal cs.length (fun i => ((cs.getD i 0 : ℚ) : ℝ))).eval x
      = ∑ l ∈ range (cs.length + 1), ((nodalCoef cs l : ℚ) : ℝ) * x ^ l := by
  induction cs with
  | nil => simp [nodal, nodalCoef]
  | cons c cs ih =>
    rw [nodal_cons, eval_mul, ih, eval_sub, eval_X, eval_C, mul_sub, List.length_cons]
    have h : ∀ l, ((nodalCoef (c :: cs) l : ℚ) : ℝ)
        = (if l = 0 then 0 else ((nodalCoef cs (l - 1) : ℚ) : ℝ)) - c * (nodalCoef cs l : ℚ) := by
      intro l
      rw [nodalCoef]
      push_cast
      split <;> simp
    simp only [h, sub_mul, sum_sub_distrib]
    congr 1
    · rw [sum_range_succ' _ (cs.length + 1), if_pos rfl, zero_mul, add_zero, sum_mul]
      refine sum_congr rfl fun l _ => ?_
      rw [if_neg (by omega), Nat.add_sub_cancel, pow_succ]
      ring
    · rw [sum_range_succ _ (cs.length + 1), nodalCoef_zero cs _ (by omega), Rat.cast_zero, mul_zero, zero_mul, add_zero,
        sum_mul]
      exact sum_congr rfl fun l _ => by ring

/-- moment of the node polynomial over `[0,1]` -/
def moment (cs : List ℚ) (m : Nat) : ℚ :=
  ∑ l ∈ range (cs.length + 1), nodalCoef cs l / ((l : ℚ) + m + 1)

theorem moment_eq (cs : List ℚ) (m : Nat) :
    ∫ x in (0 : ℝ)..1, x ^ m * (nodal cs.length (fun i => ((cs.getD i 0 : ℚ) : ℝ))).eval x = ((moment cs m : ℚ) : ℝ) := by
  have h : ∀ x : ℝ, x ^ m * (nodal cs.length (fun i => ((cs.getD i 0 : ℚ) : ℝ))).eval x
      = ∑ l ∈ range (cs.length + 1), ((nodalCoef cs l : ℚ) : ℝ) * x ^ (l + m) := by
    intro x
    rw [nodal_sum, mul_sum]
    exact sum_congr rfl fun l _ => by rw [pow_add]; ring
  simp only [h]
  rw [intervalIntegral.integral_finsetSum fun i _ =>
    (by fun_prop : Continuous fun x : ℝ => ((nodalCoef cs i : ℚ) : ℝ) * x ^ (i + m)).intervalIntegrable _ _]
  unfold moment
  push_cast
  refine sum_congr rfl fun l _ => ?_
  rw [intervalIntegral.integral_const_mul, integral_pow, one_pow, zero_pow (by omega)]
  push_cast
  ring

/-- a quadrature formula whose node polynomial has moments at most `ε` -/
theorem near_exact (cs : List ℚ) (ε : ℝ) (r : Nat)
    (hm : ∀ m < r, |((moment cs m : ℚ) : ℝ)| ≤ ε)
    (hc : Set.InjOn (fun i => ((cs.getD i 0 : ℚ) : ℝ)) (Set.Iio cs.length)) (p : ℝ[X])
    (hp : (p /ₘ nodal cs.length (fun i => ((cs.getD i 0 : ℚ) : ℝ))).degree < r) :
    |∑ i ∈ range cs.length, tabB cs.length (fun i => ((cs.getD i 0 : ℚ) : ℝ)) i * p.eval ((cs.getD i 0 : ℚ) : ℝ)
        - ∫ x in (0 : ℝ)..1, p.eval x|
      ≤ ε * ∑ m ∈ range r, |(p /ₘ nodal cs.length (fun i => ((cs.getD i 0 : ℚ) : ℝ))).coeff m| := by
  rw [quadrature_error cs.length _ hc p, sub_add_cancel_left, abs_neg]
  generalize hq : p /ₘ nodal cs.length (fun i => ((cs.getD i 0 : ℚ) : ℝ)) = q at hp
  have h : ∀ x : ℝ, q.eval x * (nodal cs.length (fun i => ((cs.getD i 0 : ℚ) : ℝ))).eval x
      = ∑ m ∈ range r, q.coeff m * (x ^ m * (nodal cs.length (fun i => ((cs.getD i 0 : ℚ) : ℝ))).eval x) := by
    intro x
    rw [eval_range q r hp, sum_mul]
    exact sum_congr rfl fun m _ => by ring
  simp only [h]
  rw [intervalIntegral.integral_finsetSum fun i _ =>
    (by fun_prop : Continuous fun x : ℝ => q.coeff i * (x ^ i *
      (nodal cs.length (fun i => ((cs.getD i 0 : ℚ) : ℝ))).eval x)).intervalIntegrable _ _]
  refine (abs_sum_le_sum_abs _ _).trans ?_
  rw [mul_sum]
  refine sum_le_sum fun m hmr => ?_
  rw [intervalIntegral.integral_const_mul, moment_eq, abs_mul, mul_comm]
  exact mul_le_mul_of_nonneg_right (hm m (mem_range.1 hmr)) (abs_nonneg _)

/-! Legendre polynomials -/
noncomputable def leg : Nat → ℝ[X]
  | 0 => 1
  | 1 => X
  | k + 2 => C (1 / ((k : ℝ) + 2)) * (C (2 * (k : ℝ) + 3) * X * leg (k + 1) - C ((k : ℝ) + 1) * leg k)

theorem leg_eval (y : ℝ) : ∀ k, (leg k).eval y = lgvm y k
  | 0 => by simp [leg, lgvm]
  | 1 => by simp [leg, lgvm]
  | k + 2 => by
    unfold leg lgvm
    simp only [eval_mul, eval_sub, eval_C, eval_X, leg_eval y (k + 1), leg_eval y k]
    ring

theorem leg_rec (k : Nat) : C ((k : ℝ) + 2) * leg (k + 2) = C (2 * (k : ℝ) + 3) * X * leg (k + 1) - C ((k : ℝ) + 1) * leg k := by
  have h0 : (k : ℝ) + 2 ≠ 0 := by positivity
  rw [leg, ← mul_assoc, ← C_mul, mul_one_div_cancel h0, C_1, one_mul]

theorem leg_ident (n : Nat) :
    X * derivative (leg (n + 1)) - derivative (leg n) = C ((n : ℝ) + 1) * leg (n + 1) ∧
    derivative (leg (n + 1)) - X * derivative (leg n) = C ((n : ℝ) + 1) * leg n := by
  induction n with
  | zero => simp [leg]
  | succ n ih =>
    obtain ⟨hA, hB⟩ := ih
    have hne : C ((n : ℝ) + 2) ≠ 0 := by
      rw [Ne, C_eq_zero]; positivity
    have hrec := leg_rec n
    have hd := congrArg derivative hrec
    simp only [derivative_mul, derivative_sub, derivative_C, derivative_X, zero_mul, zero_add, mul_one] at hd
    have hcast : C (((n + 1 : Nat) : ℝ) + 1) = C (n : ℝ) + 2 := by
      rw [show ((n + 1 : Nat) : ℝ) + 1 = (n : ℝ) + 2 by push_cast; ring, C_add]; rfl
    have e1 : C ((n : ℝ) + 1) = C (n : ℝ) + 1 := by rw [C_add]; rfl
    have e2 : C ((n : ℝ) + 2) = C (n : ℝ) + 2 := by rw [C_add]; rfl
    have e3 : C (2 * (n : ℝ) + 3) = 2 * C (n : ℝ) + 3 := by rw [C_add, C_mul]; rfl
    rw [e1] at hA hB
    rw [e1, e2, e3] at hrec hd
    rw [e2] at hne
    rw [hcast]
    have hB' : derivative (leg (n + 2)) - X * derivative (leg (n + 1)) = (C (n : ℝ) + 2) * leg (n + 1) := by
      refine mul_left_cancel₀ hne ?_
      linear_combination hd + (C (n : ℝ) + 1) * hA
    refine ⟨?_, hB'⟩
    linear_combination X * hB' - hrec + X * hA - hB

/-- Legendre's differential equation -/
theorem leg_deriv (n : Nat) :
    (1 - X ^ 2) * derivative (leg (n + 1)) = C ((n : ℝ) + 1) * (leg n - X * leg (n + 1)) := by
  obtain ⟨hA, hB⟩ := leg_ident n
  linear_combination hB - X * hA

theorem leg_ode (n : Nat) :
    derivative ((1 - X ^ 2) * derivative (leg (n + 1))) = - (C ((n : ℝ) + 1) * C ((n : ℝ) + 2) * leg (n + 1)) := by
  obtain ⟨hA, hB⟩ := leg_ident n
  rw [leg_deriv]
  simp only [derivative_mul, derivative_sub, derivative_C, derivative_X, zero_mul, zero_add, one_mul]
  have e1 : C ((n : ℝ) + 1) = C (n : ℝ) + 1 := by rw [C_add]; rfl
  have e2 : C ((n : ℝ) + 2) = C (n : ℝ) + 2 := by rw [C_add]; rfl
  rw [e1] at hA
  rw [e1, e2]
  linear_combination - (C (n : ℝ) + 1) * hA

theorem leg_degree (n : Nat) : (leg n).natDegree ≤ n ∧ (leg (n + 1)).natDegree ≤ n + 1 := by
  induction n with
  | zero => simp [leg]
  | succ n ih =>
    refine ⟨ih.2, ?_⟩
    unfold leg
    refine (natDegree_C_mul_le _ _).trans ((natDegree_sub_le _ _).trans (max_le ?_ ?_))
    · refine natDegree_mul_le.trans ?_
      have : (C (2 * (n : ℝ) + 3) * X).natDegree ≤ 1 :=
        (natDegree_C_mul_le _ _).trans natDegree_X_le
      have := ih.2
      omega
    · refine (natDegree_C_mul_le _ _).trans ?_
      have := ih.1
      omega

theorem leg_one (n : Nat) : (leg n).eval 1 = 1 ∧ (leg (n + 1)).eval 1 = 1 := by
  induction n with
  | zero => simp [leg]
  | succ n ih =>
    refine ⟨ih.2, ?_⟩
    unfold leg
    simp only [eval_mul, eval_sub, eval_C, eval_X, ih.1, ih.2]
    have h0 : (n : ℝ) + 2 ≠ 0 := by positivity
    field_simp
    ring

/-- fundamental theorem of calculus for polynomials -/
theorem integral_derivative (p : ℝ[X]) (a b : ℝ) : ∫ x in a..b, (derivative p).eval x = p.eval b - p.eval a :=
  intervalIntegral.integral_eq_sub_of_hasDerivAt (fun x _ => p.hasDerivAt x)
    ((derivative p).continuous.intervalIntegrable _ _)

theorem integrable_poly (p : ℝ[X]) (a b : ℝ) : IntervalIntegrable (fun x => p.eval x) MeasureTheory.volume a b :=
  p.continuous.intervalIntegrable _ _

/-- Legendre polynomials are orthogonal to all lower monomials -/
theorem leg_orth (n : Nat) (m : Nat) (hm : m ≤ n) : ∫ x in (-1 : ℝ)..1, (leg (n + 1) * X ^ m).eval x = 0 := by
  induction m using Nat.strong_induction_on with
  | _ m ih =>
    -- boundary terms vanish
    have key : ∫ x in (-1 : ℝ)..1, (derivative ((1 - X ^ 2) * derivative (leg (n + 1)) * X ^ m
        - (1 - X ^ 2) * (derivative (X ^ m) * leg (n + 1)))).eval x = 0 := by
      rw [integral_derivative]
      simp
    have hodd := leg_ode n
    have hpoly : derivative ((1 - X ^ 2) * derivative (leg (n + 1)) * X ^ m
        - (1 - X ^ 2) * (derivative (X ^ m) * leg (n + 1)))
        = C ((m : ℝ) * (m + 1) - ((n : ℝ) + 1) * (n + 2)) * (leg (n + 1) * X ^ m)
          - C ((m : ℝ) * (m - 1)) * (leg (n + 1) * X ^ (m - 2)) := by
      rw [derivative_sub, derivative_mul, hodd]
      rcases m with _ | _ | m
      · simp only [pow_zero, derivative_one, derivative_mul]
        simp
      · simp only [derivative_mul, derivative_sub, derivative_X_pow, derivative_one, derivative_X, zero_add, pow_one,
          Nat.cast_one, Nat.cast_ofNat, Nat.add_one_sub_one, derivative_C, C_sub, C_mul, C_add, C_1]
        simp only [map_ofNat, map_one, map_sub, map_add, map_mul]
        ring
      · simp only [derivative_mul, derivative_sub, derivative_X_pow, derivative_one, derivative_C,
          Nat.add_sub_cancel, show m + 1 + 1 - 1 = m + 1 by omega, show m + 1 + 1 - 2 = m by omega,
          show 2 - 1 = 1 by omega, Nat.cast_ofNat, Nat.cast_add, Nat.cast_one]
        simp only [map_ofNat, map_one, map_sub, map_add, map_mul, map_natCast]
        ring
    rw [hpoly] at key
    simp only [eval_sub, eval_mul (p := C _), eval_C] at key
    rw [intervalIntegral.integral_sub ((integrable_poly _ _ _).const_mul _) ((integrable_poly _ _ _).const_mul _),
      intervalIntegral.integral_const_mul, intervalIntegral.integral_const_mul] at key
    have h2 : (m : ℝ) * (m - 1) * ∫ x in (-1 : ℝ)..1, (leg (n + 1) * X ^ (m - 2)).eval x = 0 := by
      rcases m with _ | _ | m
      · simp
      · simp
      · rw [ih (m + 1 + 1 - 2) (by omega) (by omega), mul_zero]
    rw [h2, sub_zero] at key
    refine (mul_eq_zero.1 key).resolve_left ?_
    have : (m : ℝ) ≤ n := by exact_mod_cast hm
    have hm0 : (0 : ℝ) ≤ m := by positivity
    nlinarith

theorem leg_orth_poly (n : Nat) (q : ℝ[X]) (hq : q.degree < ((n + 1 : Nat) : WithBot Nat)) :
    ∫ x in (-1 : ℝ)..1, q.eval x * (leg (n + 1)).eval x = 0 := by
  have h : ∀ x : ℝ, q.eval x * (leg (n + 1)).eval x = ∑ m ∈ range (n + 1), q.coeff m * (leg (n + 1) * X ^ m).eval x := by
    intro x
    rw [eval_range q (n + 1) hq, sum_mul]
    refine sum_congr rfl fun m _ => ?_
    rw [eval_mul, eval_pow, eval_X]
    ring
  simp only [h]
  rw [intervalIntegral.integral_finsetSum fun i _ => (integrable_poly _ _ _).const_mul _]
  refine sum_eq_zero fun m hm => ?_
  rw [intervalIntegral.integral_const_mul, leg_orth n m (by have := mem_range.1 hm; omega), mul_zero]

end Real
end Acados.Butcher
