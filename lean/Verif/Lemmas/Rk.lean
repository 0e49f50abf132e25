import Verif.Spec.Rk
import Mathlib.Analysis.Calculus.FDeriv.Mul
import Mathlib.Analysis.Calculus.FDeriv.Comp
import Mathlib.Analysis.Calculus.FDeriv.Add
import Mathlib.Algebra.BigOperators.Intervals
import Mathlib.Tactic.Ring
import Mathlib.Tactic.LinearCombination
/-!
# Lemmas on explicit Runge-Kutta methods
-/
namespace Acados.Rk
open Finset

section
variable {K V W : Type*} [Semiring K] [AddCommMonoid V] [Module K V] [AddCommMonoid W] [Module K W]

theorem stages_stable (f : V → V) (a : Nat → Nat → K) (h : K) (y : V) (m n j : Nat) (hj : j < m) (hmn : m ≤ n) :
    stages f a h y n j = stages f a h y m j := by
  induction n with
  | zero => omega
  | succ n ih =>
    by_cases e : m = n + 1
    · subst e; rfl
    · rw [stages, Function.update_of_ne (by omega), ih (by omega)]

theorem stagePoint_congr (a : Nat → Nat → K) (h : K) (y : V) (k k' : Nat → V) (s : Nat)
    (hk : ∀ j < s, k j = k' j) : stagePoint a h y k s = stagePoint a h y k' s := by
  unfold stagePoint
  congr 1
  exact sum_congr rfl fun j hj => by rw [hk j (mem_range.1 hj)]

/-- the defining equation of the stages -/
theorem stages_eq (f : V → V) (a : Nat → Nat → K) (h : K) (y : V) (n s : Nat) (hs : s < n) :
    stages f a h y n s = f (stagePoint a h y (stages f a h y n) s) := by
  rw [stages_stable f a h y (s + 1) n s (by omega) (by omega), stages, Function.update_self]
  congr 1
  exact stagePoint_congr _ _ _ _ _ _ fun j hj => (stages_stable f a h y s n j hj (by omega)).symm

/-- the stages are determined by the defining equation -/
theorem stages_unique (f : V → V) (a : Nat → Nat → K) (h : K) (y : V) (n : Nat) (k : Nat → V)
    (hk : ∀ s < n, k s = f (stagePoint a h y k s)) (s : Nat) (hs : s < n) : k s = stages f a h y n s := by
  induction s using Nat.strong_induction_on with
  | _ s ih =>
    rw [hk s hs, stages_eq f a h y n s hs]
    congr 1
    exact stagePoint_congr _ _ _ _ _ _ fun j hj => ih j hj (by omega)

/-- an affine map that carries one system into another carries the steps into each other -/
theorem stages_affine (f : V → V) (g : W → W) (L : V → W) (L0 : V →ₗ[K] W)
    (hL : ∀ y d, L (y + d) = L y + L0 d) (hfg : ∀ y, L0 (f y) = g (L y)) (a : Nat → Nat → K) (h : K) (y : V)
    (n s : Nat) (hs : s < n) : L0 (stages f a h y n s) = stages g a h (L y) n s := by
  refine stages_unique g a h (L y) n (fun s => L0 (stages f a h y n s)) (fun s hs => ?_) s hs
  rw [stages_eq f a h y n s hs, hfg]
  congr 1
  unfold stagePoint
  rw [hL, map_sum]
  congr 1
  exact sum_congr rfl fun j _ => by rw [map_smul]

theorem step_affine (f : V → V) (g : W → W) (L : V → W) (L0 : V →ₗ[K] W)
    (hL : ∀ y d, L (y + d) = L y + L0 d) (hfg : ∀ y, L0 (f y) = g (L y)) (ns : Nat) (a : Nat → Nat → K)
    (b : Nat → K) (h : K) (y : V) : L (step f ns a b h y) = step g ns a b h (L y) := by
  unfold step
  rw [hL, map_sum]
  congr 1
  refine sum_congr rfl fun s hs => ?_
  rw [map_smul, stages_affine f g L L0 hL hfg a h y ns s (mem_range.1 hs)]

theorem iterate_affine (f : V → V) (g : W → W) (L : V → W) (L0 : V →ₗ[K] W)
    (hL : ∀ y d, L (y + d) = L y + L0 d) (hfg : ∀ y, L0 (f y) = g (L y)) (ns : Nat) (a : Nat → Nat → K)
    (b : Nat → K) (h : K) (N : Nat) (y : V) :
    L ((step f ns a b h)^[N] y) = (step g ns a b h)^[N] (L y) := by
  induction N with
  | zero => rfl
  | succ N ih =>
    rw [Function.iterate_succ_apply', Function.iterate_succ_apply',
      step_affine f g L L0 hL hfg, ih]
end

section
variable {E : Type*} [NormedAddCommGroup E] [NormedSpace ℝ E]

/-- the tangent system of `f` -/
def tangent (f : E → E) (f' : E → E →L[ℝ] E) : E × E → E × E := fun q => (f q.1, f' q.1 q.2)

/-- Runge-Kutta steps of the tangent system are derivatives of the Runge-Kutta steps -/
theorem stages_tangent (f : E → E) (f' : E → E →L[ℝ] E) (hf : ∀ y, HasFDerivAt f (f' y) y)
    (a : Nat → Nat → ℝ) (h : ℝ) (m : Nat) :
    ∃ D : E → Nat → E →L[ℝ] E, (∀ y j, HasFDerivAt (fun y => stages f a h y m j) (D y j) y) ∧
      ∀ y w j, stages (tangent f f') a h (y, w) m j = (stages f a h y m j, D y j w) := by
  induction m with
  | zero =>
    refine ⟨fun _ _ => 0, fun y j => hasFDerivAt_const (0 : E) y, fun y w j => ?_⟩
    simp only [stages, ContinuousLinearMap.zero_apply]
    rfl
  | succ m ih =>
    obtain ⟨D, hD, hT⟩ := ih
    -- derivative of the stage point
    let P : E → E →L[ℝ] E := fun y => ContinuousLinearMap.id ℝ E + ∑ j ∈ range m, (h * a m j) • D y j
    have hP : ∀ y, HasFDerivAt (fun y => stagePoint a h y (stages f a h y m) m) (P y) y := by
      intro y
      refine (hasFDerivAt_id y).add ?_
      have := HasFDerivAt.fun_sum (u := range m) (A := fun j y => (h * a m j) • stages f a h y m j)
        (A' := fun j => (h * a m j) • D y j) (x := y) (fun j _ => (hD y j).const_smul (h * a m j))
      exact this
    have hT' : ∀ y w, stagePoint a h (y, w) (stages (tangent f f') a h (y, w) m) m
        = (stagePoint a h y (stages f a h y m) m, P y w) := by
      intro y w
      unfold stagePoint
      simp only [hT, P]
      ext
      · simp [Prod.fst_sum]
      · simp [Prod.snd_sum]
    refine ⟨fun y j => if j = m then (f' (stagePoint a h y (stages f a h y m) m)).comp (P y) else D y j,
      fun y j => ?_, fun y w j => ?_⟩
    · by_cases hj : j = m
      · subst hj
        simp only [if_true]
        have e : (fun y => stages f a h y (j + 1) j) = fun y => f (stagePoint a h y (stages f a h y j) j) := by
          funext y; rw [stages, Function.update_self]
        rw [e]
        exact (hf _).comp y (hP y)
      · simp only [if_neg hj]
        have e : (fun y => stages f a h y (m + 1) j) = fun y => stages f a h y m j := by
          funext y; rw [stages, Function.update_of_ne hj]
        rw [e]; exact hD y j
    · by_cases hj : j = m
      · subst hj
        rw [stages, Function.update_self, hT', stages, Function.update_self]
        simp only [if_true]
        rfl
      · rw [stages, Function.update_of_ne hj, hT, stages, Function.update_of_ne hj]
        simp only [if_neg hj]

theorem step_tangent (f : E → E) (f' : E → E →L[ℝ] E) (hf : ∀ y, HasFDerivAt f (f' y) y) (ns : Nat)
    (a : Nat → Nat → ℝ) (b : Nat → ℝ) (h : ℝ) :
    ∃ D : E → E →L[ℝ] E, (∀ y, HasFDerivAt (step f ns a b h) (D y) y) ∧
      ∀ y w, step (tangent f f') ns a b h (y, w) = (step f ns a b h y, D y w) := by
  obtain ⟨D, hD, hT⟩ := stages_tangent f f' hf a h ns
  refine ⟨fun y => ContinuousLinearMap.id ℝ E + ∑ s ∈ range ns, (h * b s) • D y s, fun y => ?_, fun y w => ?_⟩
  · refine (hasFDerivAt_id y).add ?_
    exact HasFDerivAt.fun_sum (u := range ns) (A := fun j y => (h * b j) • stages f a h y ns j)
        (A' := fun j => (h * b j) • D y j) (x := y) (fun j _ => (hD y j).const_smul (h * b j))
  · unfold step
    simp only [hT]
    ext
    · simp [Prod.fst_sum]
    · simp [Prod.snd_sum]

theorem iterate_tangent (f : E → E) (f' : E → E →L[ℝ] E) (hf : ∀ y, HasFDerivAt f (f' y) y) (ns : Nat)
    (a : Nat → Nat → ℝ) (b : Nat → ℝ) (h : ℝ) (N : Nat) :
    ∃ D : E → E →L[ℝ] E, (∀ y, HasFDerivAt ((step f ns a b h)^[N]) (D y) y) ∧
      ∀ y w, (step (tangent f f') ns a b h)^[N] (y, w) = ((step f ns a b h)^[N] y, D y w) := by
  obtain ⟨D1, hD1, hT1⟩ := step_tangent f f' hf ns a b h
  induction N with
  | zero => exact ⟨fun _ => ContinuousLinearMap.id ℝ E, fun y => hasFDerivAt_id y, fun y w => rfl⟩
  | succ N ih =>
    obtain ⟨D, hD, hT⟩ := ih
    refine ⟨fun y => (D1 ((step f ns a b h)^[N] y)).comp (D y), fun y => ?_, fun y w => ?_⟩
    · rw [Function.iterate_succ']
      exact (hD1 _).comp y (hD y)
    · rw [Function.iterate_succ_apply', hT, hT1, Function.iterate_succ_apply']
      rfl
end

/-- The adjoint recursion of one step: `dk` are tangent stages with forcing `g`, `l` the adjoint variables,
`P` the products with the transposed Jacobians. -/
theorem adjoint_step {K : Type*} [CommRing K] (nx ns : Nat) (a : Nat → Nat → K) (b : Nat → K) (h : K)
    (F : Nat → Nat → Nat → K) (g dk l P : Nat → Nat → K) (dx mu : Nat → K)
    (hdk : ∀ s < ns, ∀ r < nx, dk s r
      = (∑ k ∈ range nx, F s r k * (dx k + ∑ j ∈ range s, h * a s j * dk j k)) + g s r)
    (hP : ∀ s < ns, ∀ k < nx, P s k = ∑ r ∈ range nx, F s r k * l s r)
    (hl : ∀ s < ns, ∀ r < nx, l s r = h * b s * mu r + ∑ j ∈ Ico (s + 1) ns, h * a j s * P j r) :
    ∑ r ∈ range nx, mu r * (dx r + ∑ s ∈ range ns, h * b s * dk s r)
      = (∑ r ∈ range nx, (mu r + ∑ s ∈ range ns, P s r) * dx r)
        + ∑ s ∈ range ns, ∑ r ∈ range nx, l s r * g s r := by
  have h1 : ∑ s ∈ range ns, ∑ r ∈ range nx, l s r * dk s r
      = ∑ s ∈ range ns, ∑ k ∈ range nx, P s k * (dx k + ∑ j ∈ range s, h * a s j * dk j k)
        + ∑ s ∈ range ns, ∑ r ∈ range nx, l s r * g s r := by
    rw [← sum_add_distrib]
    refine sum_congr rfl fun s hs => ?_
    have hs' := mem_range.1 hs
    have e1 : ∑ r ∈ range nx, l s r * dk s r = ∑ r ∈ range nx, ((∑ k ∈ range nx, F s r k * l s r *
        (dx k + ∑ j ∈ range s, h * a s j * dk j k)) + l s r * g s r) := by
      refine sum_congr rfl fun r hr => ?_
      rw [hdk s hs' r (mem_range.1 hr), mul_add, mul_sum]
      congr 1
      exact sum_congr rfl fun k _ => by ring
    rw [e1, sum_add_distrib, sum_comm]
    congr 1
    refine sum_congr rfl fun k hk => ?_
    rw [hP s hs' k (mem_range.1 hk), sum_mul]
  have h2 : ∑ s ∈ range ns, ∑ r ∈ range nx, l s r * dk s r
      = ∑ s ∈ range ns, ∑ r ∈ range nx, h * b s * mu r * dk s r
        + ∑ s ∈ range ns, ∑ r ∈ range nx, ∑ j ∈ Ico (s + 1) ns, h * a j s * P j r * dk s r := by
    rw [← sum_add_distrib]
    refine sum_congr rfl fun s hs => ?_
    rw [← sum_add_distrib]
    refine sum_congr rfl fun r hr => ?_
    rw [hl s (mem_range.1 hs) r (mem_range.1 hr), add_mul, sum_mul]
  have h3 : ∑ s ∈ range ns, ∑ r ∈ range nx, ∑ j ∈ Ico (s + 1) ns, h * a j s * P j r * dk s r
      = ∑ j ∈ range ns, ∑ r ∈ range nx, ∑ s ∈ range j, h * a j s * P j r * dk s r := by
    have e : ∀ s ∈ range ns, ∑ r ∈ range nx, ∑ j ∈ Ico (s + 1) ns, h * a j s * P j r * dk s r
        = ∑ j ∈ range ns, if s < j then ∑ r ∈ range nx, h * a j s * P j r * dk s r else 0 := by
      intro s _
      rw [sum_comm, ← sum_filter]
      refine sum_congr ?_ fun _ _ => rfl
      ext j
      simp only [mem_Ico, mem_filter, mem_range]
      omega
    rw [sum_congr rfl e, sum_comm]
    refine sum_congr rfl fun j hj => ?_
    rw [sum_comm (s := range nx), ← sum_filter]
    refine sum_congr ?_ fun _ _ => rfl
    ext s
    have := mem_range.1 hj
    simp only [mem_filter, mem_range]
    omega
  have h4 : ∑ s ∈ range ns, ∑ k ∈ range nx, P s k * (dx k + ∑ j ∈ range s, h * a s j * dk j k)
      = ∑ s ∈ range ns, ∑ k ∈ range nx, P s k * dx k
        + ∑ j ∈ range ns, ∑ r ∈ range nx, ∑ s ∈ range j, h * a j s * P j r * dk s r := by
    rw [← sum_add_distrib]
    refine sum_congr rfl fun s _ => ?_
    rw [← sum_add_distrib]
    refine sum_congr rfl fun k _ => ?_
    rw [mul_add, mul_sum]
    congr 1
    exact sum_congr rfl fun j _ => by ring
  have h5 : ∑ r ∈ range nx, mu r * (dx r + ∑ s ∈ range ns, h * b s * dk s r)
      = ∑ r ∈ range nx, mu r * dx r + ∑ s ∈ range ns, ∑ r ∈ range nx, h * b s * mu r * dk s r := by
    rw [sum_comm (s := range ns), ← sum_add_distrib]
    refine sum_congr rfl fun r _ => ?_
    rw [mul_add, mul_sum]
    congr 1
    exact sum_congr rfl fun j _ => by ring
  have h6 : ∑ r ∈ range nx, (mu r + ∑ s ∈ range ns, P s r) * dx r
      = ∑ r ∈ range nx, mu r * dx r + ∑ s ∈ range ns, ∑ k ∈ range nx, P s k * dx k := by
    rw [sum_comm (s := range ns), ← sum_add_distrib]
    refine sum_congr rfl fun r _ => ?_
    rw [add_mul, sum_mul]
  rw [h5, h6]
  linear_combination h1 - h2 - h3 + h4

end Acados.Rk
