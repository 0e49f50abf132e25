import Verif.Lemmas.IrkSens
import Mathlib.LinearAlgebra.Matrix.NonsingularInverse
import Mathlib.LinearAlgebra.Matrix.Notation
import Mathlib.Algebra.Order.Field.Rat
import Mathlib.Tactic.FinCases
/-!
# C67–C69: implicit Runge-Kutta integrator

C67: the steps; C68: forward and parameter sensitivities; C69: adjoint sensitivities.
-/
namespace Acados.Irk
open Matrix
open Acados.Gnsf (Lu IsLu solveV solveM solveT)
set_option linter.unusedSectionVars false
variable {K : Type*} [Field K] [LinearOrder K] {d : Dims}

/-- the factorisation routine is exact on nonsingular matrices -/
def ExactLu (g : Matrix (Fin (nK d)) (Fin (nK d)) K → Lu (Fin (nK d)) K) : Prop :=
  ∀ M, IsUnit M → IsLu M (g M)

/-- exact factorisation routines exist: every field has one (here `1 · M`) -/
theorem exactLu_inhabited : ExactLu (d := d) (K := K) (fun M => ⟨1, 1, M, 1, M⁻¹⟩) := by
  intro M hM
  refine ⟨by simp, by simp, ?_⟩
  exact Matrix.mul_nonsing_inv M ((Matrix.isUnit_iff_isUnit_det M).mp hM)

section Step
variable (o : Opts K) (h t0 : K) (e : Ext d K) (u : Fin d.nu → K)
variable (g : Matrix (Fin (nK d)) (Fin (nK d)) K → Lu (Fin (nK d)) K)

theorem dGdK_isUnit {ss : Nat} {xn : Fin d.nx → K} {k : Fin (nK d) → K}
    (hr : Regular o h e u (ptOf d ss h t0 xn k)) : IsUnit (dGdK d o h t0 e u ss xn k) := by
  rw [← Matrix.mulVec_injective_iff_isUnit]
  have hz : ∀ v, dGdK d o h t0 e u ss xn k *ᵥ v = 0 → v = 0 := by
    intro v hv
    obtain ⟨h1, h2⟩ := hr (kB d v) (zB d v) (fun i => by
      rw [← dGdK_mulVec, hv]; exact blk_zero _ _)
    exact kz_ext (h1.trans rfl) (h2.trans rfl)
  intro v w hvw
  have : dGdK d o h t0 e u ss xn k *ᵥ (v - w) = 0 := by
    rw [Matrix.mulVec_sub]; exact sub_eq_zero.mpr hvw
  exact sub_eq_zero.mp (hz _ this)

/-- `lu` factorises the linearisation at `Q` -/
def LuAt (Q : Pt d K) (lu : Lu (Fin (nK d)) K) : Prop := Regular o h e u Q → ∀ y i,
  tangent o h e u Q 0 0 (kB d (solveV lu y)) (zB d (solveV lu y)) i = rB d y i

theorem luAt_fresh (hg : ExactLu g) (ss : Nat) (xn : Fin d.nx → K)
    (k : Fin (nK d) → K) :
    LuAt o h e u (ptOf d ss h t0 xn k) (g (dGdK d o h t0 e u ss xn k)) := fun hr y i =>
  solve_tangent o h t0 e u (hg _ (dGdK_isUnit o h t0 e u hr)) y i

theorem exists_block {p : K → Prop} (v : Fin (nK d) → K) (hv : ∃ a, p (v a)) :
    (∃ i c, p (kB d v i c)) ∨ ∃ i c, p (zB d v i c) := by
  obtain ⟨a, ha⟩ := hv
  have hs := nK_split d
  by_cases hl : a.val < d.s * d.nx
  · left
    have hm : 0 < d.nx := by
      rcases Nat.eq_zero_or_pos d.nx with h0 | h0
      · simp [h0] at hl
      · exact h0
    refine ⟨⟨a.val / d.nx, Nat.div_lt_of_lt_mul (by rwa [Nat.mul_comm])⟩, ⟨a.val % d.nx, Nat.mod_lt _ hm⟩, ?_⟩
    have e : a.val / d.nx * d.nx + a.val % d.nx = a.val := by rw [Nat.mul_comm]; exact Nat.div_add_mod _ _
    simpa only [kB, e] using ha
  · right
    have hb : a.val - d.s * d.nx < d.s * d.nz := by have := a.isLt; omega
    have hm : 0 < d.nz := by
      rcases Nat.eq_zero_or_pos d.nz with h0 | h0
      · simp [h0] at hb
      · exact h0
    refine ⟨⟨(a.val - d.s * d.nx) / d.nz, Nat.div_lt_of_lt_mul (by rwa [Nat.mul_comm d.nz d.s])⟩,
      ⟨(a.val - d.s * d.nx) % d.nz, Nat.mod_lt _ hm⟩, ?_⟩
    have e : d.s * d.nx + (a.val - d.s * d.nx) / d.nz * d.nz + (a.val - d.s * d.nx) % d.nz = a.val := by
      have := Nat.div_add_mod (a.val - d.s * d.nx) d.nz
      rw [Nat.mul_comm] at this
      omega
    simpa only [zB, e] using ha

/-- one Newton loop, with the linearisation held in memory -/
theorem newton_lin (Q : Option (Pt d K)) (ss : Nat) (xn : Fin d.nx → K)
    (hg : ExactLu g) (hQ : o.jac_reuse = true ↔ Q.isSome = true) :
    ∀ n lu k w, (∀ q, Q = some q → LuAt o h e u q lu) →
      NewtonRun o h e u (linAt Q) xn (t0 + (ss : K) * h) n (kB d k) (zB d k)
        (kB d (newton d o h t0 e u g ss xn n false lu k w).1)
        (zB d (newton d o h t0 e u g ss xn n false lu k w).1)
      ∧ (o.jac_reuse = true → (newton d o h t0 e u g ss xn n false lu k w).2 = lu) := by
  intro n
  induction n with
  | zero => intro lu k w _; exact ⟨NewtonRun.out _ _, fun _ => rfl⟩
  | succ n ih =>
    intro lu k w hlu
    have hcond : ((o.jac_reuse && false) || !o.jac_reuse) = !o.jac_reuse := by simp
    simp only [newton, hcond]
    set lu' := (if (!o.jac_reuse) = true then g (dGdK d o h t0 e u ss xn k) else lu) with hlu'
    set δ := solveV lu' (rG d o h t0 e u ss xn k w) with hδ
    have hlu2 : o.jac_reuse = true → lu' = lu := fun hj => by rw [hlu', if_neg (by simp [hj])]
    have heq : Regular o h e u (linAt Q ⟨xn, kB d k, zB d k, t0 + (ss : K) * h⟩) →
        ∀ i, tangent o h e u (linAt Q ⟨xn, kB d k, zB d k, t0 + (ss : K) * h⟩) 0 0 (kB d δ) (zB d δ) i
        = atStage o h u ⟨xn, kB d k, zB d k, t0 + (ss : K) * h⟩ i e.f := by
      intro hr i
      rw [hδ]
      cases hq : Q with
      | none =>
        have hj : o.jac_reuse = false := by
          cases hj : o.jac_reuse with
          | false => rfl
          | true => rw [hj, hq] at hQ; simp at hQ
        have : lu' = g (dGdK d o h t0 e u ss xn k) := by rw [hlu', if_pos (by simp [hj])]
        rw [this]
        have := luAt_fresh o h t0 e u g hg ss xn k (by rw [hq] at hr; exact hr) (rG d o h t0 e u ss xn k w) i
        rw [rG_blk] at this
        exact this
      | some q =>
        have hj : o.jac_reuse = true := by rw [hQ, hq]; rfl
        rw [hlu2 hj]
        have := hlu q hq (by rw [hq] at hr; exact hr) (rG d o h t0 e u ss xn k w) i
        rw [rG_blk] at this
        exact this
    by_cases hst : 0 < o.newton_tol ∧ ∀ a, |δ a| < o.newton_tol
    · rw [if_pos hst]
      refine ⟨?_, hlu2⟩
      rw [kB_sub, zB_sub]
      exact NewtonRun.stop n _ _ _ _ heq hst.1 (fun i c => hst.2 _) (fun i c => hst.2 _)
    · rw [if_neg hst]
      have hlu3 : ∀ q, Q = some q → LuAt o h e u q lu' := by
        intro q hq
        rw [hlu2 (by rw [hQ, hq]; rfl)]; exact hlu q hq
      obtain ⟨h1, h2⟩ := ih lu' (k - δ) δ hlu3
      refine ⟨?_, fun hj => (h2 hj).trans (hlu2 hj)⟩
      refine NewtonRun.more n _ _ (kB d δ) (zB d δ) _ _ heq ?_ (by rw [← kB_sub, ← zB_sub]; exact h1)
      by_cases ht : 0 < o.newton_tol
      · right
        have : ∃ a, o.newton_tol ≤ |δ a| := by
          by_contra hc
          push Not at hc
          exact hst ⟨ht, hc⟩
        exact exists_block (p := fun a => o.newton_tol ≤ |a|) δ this
      · left; exact not_lt.mp ht

/-- with `fresh`, the first iteration factorises at the initial guess -/
theorem newton_first (ss : Nat) (xn : Fin d.nx → K) (n : Nat) (lu : Lu (Fin (nK d)) K) (k w : Fin (nK d) → K)
    (hj : o.jac_reuse = true) :
    newton d o h t0 e u g ss xn (n + 1) true lu k w
      = newton d o h t0 e u g ss xn (n + 1) false (g (dGdK d o h t0 e u ss xn k)) k w := by
  simp [newton, hj]

theorem newton_nofresh (ss : Nat) (xn : Fin d.nx → K) (n : Nat) (lu : Lu (Fin (nK d)) K) (k w : Fin (nK d) → K)
    (b : Bool) (hj : o.jac_reuse = false) :
    newton d o h t0 e u g ss xn n b lu k w = newton d o h t0 e u g ss xn n false lu k w := by
  cases n <;> simp [newton, hj]

/-- **C67 (Newton iteration).**  Without Jacobian reuse, the stage values computed in a step are those of
Newton's method for the stage equations `f(x + h ∑ a_ij k_j, k_i, u, z_i, t + c_i h) = 0`, started at the
given guess, with at most `newton_iter` iterations and the documented stopping rule.  Hypothesis: the
factorisation is exact on nonsingular matrices. -/
theorem C67_newton (hg : ExactLu g) (hj : o.jac_reuse = false)
    (ss : Nat) (lu : Lu (Fin (nK d)) K) (k w : Fin (nK d) → K) (x : Fin d.nx → K) :
    NewtonRun o h e u id x (t0 + (ss : K) * h) o.newton_iter (kB d k) (zB d k)
        (kB d (step d o h t0 e u g ss lu k w x).k) (zB d (step d o h t0 e u g ss lu k w x).k)
    ∧ (step d o h t0 e u g ss lu k w x).x = nextOf o h x (kB d (step d o h t0 e u g ss lu k w x).k) := by
  refine ⟨?_, nextX_eq o h _ _⟩
  have := (newton_lin o h t0 e u g none ss x hg (by simp [hj]) o.newton_iter lu k w
    (fun q hq => nomatch hq)).1
  have hl : (linAt (none : Option (Pt d K))) = id := by funext P; rfl
  rw [hl] at this
  simp only [step]
  rw [newton_nofresh o h t0 e u g ss x o.newton_iter lu k w (ss == 0) hj]
  exact this

/-- how the linearisation point changes from step to step -/
def updOf (reuse sens : Bool) (P : Pt d K) (lin : Option (Pt d K)) : Option (Pt d K) :=
  if reuse then (if sens then some P else lin) else none

theorem run_aux (hg : ExactLu g) (sens : Bool) (w : Fin (nK d) → K) :
    ∀ (n ss : Nat) lu k x Q, (o.jac_reuse = true ↔ Q.isSome = true) →
      ((ss = 0 ∧ ∀ q, Q = some q → q = ptOf d 0 h t0 x k) ∨
        (ss ≠ 0 ∧ (o.newton_iter = 0 ∨ ∀ q, Q = some q → LuAt o h e u q lu))) →
      Run o h e u (updOf o.jac_reuse sens) Q (t0 + (ss : K) * h) x (kB d k) (zB d k)
        (simulate d o h t0 e u g sens n ss lu k w x) := by
  intro n
  induction n with
  | zero => intro ss lu k x Q _ _; exact Run.nil _ _ _ _ _
  | succ n ih =>
    intro ss lu k x Q hQ hinv
    simp only [simulate]
    set r := step d o h t0 e u g ss lu k w x with hrdef
    have hpt : r.pt (t0 + (ss : K) * h) = ptOf d ss h t0 x r.k := rfl
    -- the Newton loop and the factorisation it leaves
    have core : NewtonRun o h e u (linAt Q) x (t0 + (ss : K) * h) o.newton_iter (kB d k) (zB d k)
        (kB d r.k) (zB d r.k) ∧ (o.newton_iter = 0 ∨ ∀ q, Q = some q → LuAt o h e u q r.lu) := by
      cases hj : o.jac_reuse with
      | false =>
        have hn : Q = none := by
          cases Q with
          | none => rfl
          | some q => rw [hj] at hQ; simp at hQ
        have h1 := (newton_lin o h t0 e u g Q ss x hg hQ o.newton_iter lu k w
          (fun q hq => by rw [hn] at hq; exact nomatch hq)).1
        rw [← newton_nofresh o h t0 e u g ss x o.newton_iter lu k w (ss == 0) hj] at h1
        exact ⟨h1, Or.inr (fun q hq => by rw [hn] at hq; exact nomatch hq)⟩
      | true =>
        rcases hinv with ⟨h0, hq0⟩ | ⟨h0, hlu⟩
        · subst h0
          cases hni : o.newton_iter with
          | zero =>
            refine ⟨?_, Or.inl rfl⟩
            have : r.k = k := by rw [hrdef]; simp [step, hni, newton]
            rw [this]; exact NewtonRun.out _ _
          | succ m =>
            have hlu : ∀ q, Q = some q → LuAt o h e u q (g (dGdK d o h t0 e u 0 x k)) := by
              intro q hq
              rw [hq0 q hq]; exact luAt_fresh o h t0 e u g hg 0 x k
            obtain ⟨h1, h2⟩ := newton_lin o h t0 e u g Q 0 x hg hQ (m + 1) (g (dGdK d o h t0 e u 0 x k)) k w hlu
            rw [← newton_first o h t0 e u g 0 x m lu k w hj] at h1 h2
            have hk : r.k = (newton d o h t0 e u g 0 x (m + 1) true lu k w).1 := by
              rw [hrdef]; simp only [step, hni]; rfl
            have hl : r.lu = (newton d o h t0 e u g 0 x (m + 1) true lu k w).2 := by
              rw [hrdef]; simp only [step, hni]; rfl
            rw [hk, hl, h2 hj]
            exact ⟨h1, Or.inr hlu⟩
        · have hb : (ss == 0) = false := by simp [h0]
          rcases hlu with hni | hlu
          · refine ⟨?_, Or.inl hni⟩
            have : r.k = k := by rw [hrdef]; simp [step, hni, newton]
            rw [this, hni]; exact NewtonRun.out _ _
          · obtain ⟨h1, h2⟩ := newton_lin o h t0 e u g Q ss x hg hQ o.newton_iter lu k w hlu
            have hk : r.k = (newton d o h t0 e u g ss x o.newton_iter false lu k w).1 := by
              rw [hrdef]; simp only [step, hb]
            have hl : r.lu = (newton d o h t0 e u g ss x o.newton_iter false lu k w).2 := by
              rw [hrdef]; simp only [step, hb]
            rw [hk, hl, h2 hj]
            exact ⟨h1, Or.inr hlu⟩
    refine Run.cons _ _ _ _ _ _ _ rfl core.1 (nextX_eq o h _ _) ?_
    have ht : t0 + (ss : K) * h + h = t0 + ((ss + 1 : Nat) : K) * h := by push_cast; ring
    rw [ht]
    refine ih (ss + 1) _ r.k r.x _ ?_ (Or.inr ⟨by omega, ?_⟩)
    · cases hj : o.jac_reuse with
      | false => simp [updOf]
      | true =>
        cases sens with
        | true => simp [updOf]
        | false => rw [hj] at hQ; simpa [updOf] using hQ
    · cases hj : o.jac_reuse with
      | false => exact Or.inr (fun q hq => by simp [updOf] at hq)
      | true =>
        cases sens with
        | true =>
          refine Or.inr (fun q hq => ?_)
          simp only [updOf, if_true, Option.some.injEq] at hq
          rw [← hq, hpt, if_pos rfl]
          exact luAt_fresh o h t0 e u g hg ss x r.k
        | false =>
          rcases core.2 with h1 | h1
          · exact Or.inl h1
          · right
            intro q hq
            simp only [updOf, if_true] at hq
            exact h1 q hq

/-- **C67 (integration).**  A call takes the Runge-Kutta steps of the user's tableau one after another: step
`ss` starts at time `t0 + ss h` in the state the previous one ended in, its stage values come from Newton's
method started at the previous stage values, and the next state is `x + h ∑ b_i k_i`.  With Jacobian reuse,
every iteration is linearised at the initial guess of the first step (or, when sensitivities are computed,
at the end point of the previous step). -/
theorem C67_run (hg : ExactLu g) (sens : Bool) (n : Nat)
    (lu : Lu (Fin (nK d)) K) (k w : Fin (nK d) → K) (x : Fin d.nx → K) :
    Run o h e u (updOf o.jac_reuse sens)
      (if o.jac_reuse then some ⟨x, kB d k, zB d k, t0⟩ else none) t0 x (kB d k) (zB d k)
      (simulate d o h t0 e u g sens n 0 lu k w x) := by
  have := run_aux o h t0 e u g hg sens w n 0 lu k x
    (if o.jac_reuse then some ⟨x, kB d k, zB d k, t0⟩ else none) (by cases o.jac_reuse <;> simp)
    (Or.inl ⟨rfl, fun q hq => by
      cases hj : o.jac_reuse with
      | false => simp [hj] at hq
      | true => simp only [hj, if_true, Option.some.injEq] at hq; rw [← hq]; simp [ptOf]⟩)
  simpa using this

/-- **C67 (initial guess).**  Every stage starts from the stored state derivative and algebraic variables. -/
theorem C67_init (xdot : Fin d.nx → K) (z : Fin d.nz → K) (w : Fin (nK d) → K) (i : Fin d.s) :
    kB d (initK d xdot z w) i = xdot ∧ zB d (initK d xdot z w) i = z := by
  have key : ∀ n, n ≤ d.s → i.val < n →
      kB d (loop n (fun i k => dveccp d.nz z 0 (dveccp d.nx xdot 0 k (d.nx * i)) (d.nx * d.s + i * d.nz)) w) i = xdot
      ∧ zB d (loop n (fun i k => dveccp d.nz z 0 (dveccp d.nx xdot 0 k (d.nx * i)) (d.nx * d.s + i * d.nz)) w) i
        = z := by
    intro n
    induction n with
    | zero => intro _ hi; omega
    | succ n ih =>
      intro hn hi
      simp only [loop_succ]
      generalize hX : loop n _ w = X at ih ⊢
      have hk1 : (i.val + 1) * d.nx ≤ d.s * d.nx := Nat.mul_le_mul_right _ i.isLt
      have hc := Nat.mul_comm d.nx d.s
      have hc2 := Nat.mul_comm d.nx n
      rw [Nat.add_mul] at hk1
      have hnx : (n + 1) * d.nx ≤ d.s * d.nx := Nat.mul_le_mul_right _ hn
      rw [Nat.add_mul] at hnx
      refine ⟨funext fun c => ?_, funext fun c => ?_⟩
      · have hcl := c.isLt
        simp only [kB, dveccp]
        rw [if_neg (by omega)]
        by_cases hin : i.val = n
        · rw [← hin] at hc2 ⊢
          rw [if_pos ⟨by omega, by omega⟩, rd_lt _ _ (by omega)]
          congr 1; apply Fin.ext; simp only; omega
        · have := blk_ne (m := d.nx) c hin
          rw [if_neg (by rw [hc2]; exact this)]
          exact congrFun (ih (by omega) (by omega)).1 c
      · have hcl := c.isLt
        simp only [zB, dveccp]
        by_cases hin : i.val = n
        · rw [← hin]
          rw [if_pos ⟨by omega, by omega⟩, rd_lt _ _ (by omega)]
          congr 1; apply Fin.ext; simp only; omega
        · have := blk_ne (m := d.nz) c hin
          rw [if_neg (by omega), if_neg (by omega)]
          exact congrFun (ih (by omega) (by omega)).2 c
  exact key d.s le_rfl i.isLt

end Step

section Sound
variable (o : Opts K) (h : K) (e : Ext d K) (u : Fin d.nu → K)

theorem tangent_sub (P : Pt d K) (δx : Fin d.nx → K) (δu : Fin d.nu → K) (δk δk' : Fin d.s → Fin d.nx → K)
    (δz δz' : Fin d.s → Fin d.nz → K) (i : Fin d.s) :
    tangent o h e u P 0 0 (δk - δk') (δz - δz') i
      = tangent o h e u P δx δu δk δz i - tangent o h e u P δx δu δk' δz' i := by
  have h1 : stageOf o h 0 (δk - δk') i = stageOf o h 0 δk i - stageOf o h 0 δk' i := by
    funext r
    simp only [stageOf, Pi.zero_apply, zero_add, Pi.sub_apply]
    rw [← mul_sub, ← Finset.sum_sub_distrib]
    congr 1
    exact Finset.sum_congr rfl fun j _ => by ring
  rw [tangent_split o h e u P δx δu δk, tangent_split o h e u P δx δu δk']
  simp only [tangent, h1, Pi.sub_apply, Matrix.mulVec_sub, Matrix.mulVec_zero]
  abel

/-- **C67 (solved guess).**  If the guess already solves the stage equations, it is returned. -/
theorem C67_solved_stays (lin : Pt d K → Pt d K) (x : Fin d.nx → K) (t : K)
    (n : Nat) (k k' : Fin d.s → Fin d.nx → K) (z z' : Fin d.s → Fin d.nz → K)
    (hr : Regular o h e u (lin ⟨x, k, z, t⟩))
    (hs : Solves o h e u ⟨x, k, z, t⟩) (hn : NewtonRun o h e u lin x t n k z k' z') : k' = k ∧ z' = z := by
  induction hn with
  | out k z => exact ⟨rfl, rfl⟩
  | stop n k z δk δz heq _ _ _ =>
    obtain ⟨h1, h2⟩ := hr δk δz (fun i => (heq hr i).trans (hs i))
    subst h1; subst h2
    simp
  | more n k z δk δz k' z' heq _ _ ih =>
    obtain ⟨h1, h2⟩ := hr δk δz (fun i => (heq hr i).trans (hs i))
    subst h1; subst h2
    simp only [sub_zero] at ih
    exact ih hr hs

/-- the model is affine in `(x, ẋ, z)` with constant Jacobians `Fx`, `Fk`, `Fz` -/
structure Affine (Fx Fk : Matrix (Fin (d.nx + d.nz)) (Fin d.nx) K) (Fz : Matrix (Fin (d.nx + d.nz)) (Fin d.nz) K)
    (c : K → Fin (d.nx + d.nz) → K) : Prop where
  f : ∀ x k z t, e.f x k u z t = Fx *ᵥ x + Fk *ᵥ k + Fz *ᵥ z + c t
  fx : ∀ x k z t, e.fx x k u z t = Fx
  fk : ∀ x k z t, e.fk x k u z t = Fk
  fz : ∀ x k z t, e.fz x k u z t = Fz

theorem affine_step {Fx Fk : Matrix (Fin (d.nx + d.nz)) (Fin d.nx) K}
    {Fz : Matrix (Fin (d.nx + d.nz)) (Fin d.nz) K} {c : K → Fin (d.nx + d.nz) → K} (ha : Affine e u Fx Fk Fz c)
    (Q : Pt d K) (x : Fin d.nx → K) (t : K) (k δk : Fin d.s → Fin d.nx → K) (z δz : Fin d.s → Fin d.nz → K)
    (heq : ∀ i, tangent o h e u Q 0 0 δk δz i = atStage o h u ⟨x, k, z, t⟩ i e.f) :
    Solves o h e u ⟨x, k - δk, z - δz, t⟩ := by
  intro i
  have h0 := heq i
  simp only [tangent, atStage, ha.f, ha.fx, ha.fk, ha.fz, Matrix.mulVec_zero, add_zero] at h0 ⊢
  have h1 : stageOf o h x (k - δk) i = stageOf o h x k i - stageOf o h 0 δk i := by
    funext r
    simp only [stageOf, Pi.zero_apply, zero_add, Pi.sub_apply]
    rw [add_sub_assoc, ← mul_sub, ← Finset.sum_sub_distrib]
    congr 2
    exact Finset.sum_congr rfl fun j _ => by ring
  simp only [h1, Pi.sub_apply, Matrix.mulVec_sub]
  rw [sub_add_sub_comm, sub_add_sub_comm, h0]
  abel

/-- **C67 (affine models).**  For a model affine in state, derivative and algebraic variables, one or more
Newton iterations solve the stage equations exactly, with or without Jacobian reuse. -/
theorem C67_affine (lin : Pt d K → Pt d K) (hr : ∀ P, Regular o h e u P)
    {Fx Fk : Matrix (Fin (d.nx + d.nz)) (Fin d.nx) K}
    {Fz : Matrix (Fin (d.nx + d.nz)) (Fin d.nz) K} {c : K → Fin (d.nx + d.nz) → K} (ha : Affine e u Fx Fk Fz c)
    (x : Fin d.nx → K) (t : K) (n : Nat) (k k' : Fin d.s → Fin d.nx → K) (z z' : Fin d.s → Fin d.nz → K)
    (hn : NewtonRun o h e u lin x t (n + 1) k z k' z') : Solves o h e u ⟨x, k', z', t⟩ := by
  cases hn with
  | stop _ _ _ δk δz heq _ _ _ => exact affine_step o h e u ha _ x t k δk z δz (heq (hr _))
  | more _ _ _ δk δz _ _ heq _ hrest =>
    have hs := affine_step o h e u ha _ x t k δk z δz (heq (hr _))
    obtain ⟨h1, h2⟩ := C67_solved_stays o h e u lin x t n _ _ _ _ (hr _) hs hrest
    rw [h1, h2]; exact hs

/-- every step of a run solves its stage equations -/
inductive Exact : K → List (StepOut d K) → Prop where
  | nil (t) : Exact t []
  | cons (t s l) : Solves o h e u (s.pt t) → Exact (t + h) l → Exact t (s :: l)

theorem C67_affine_run (hr : ∀ P, Regular o h e u P) (hni : o.newton_iter ≠ 0)
    {Fx Fk : Matrix (Fin (d.nx + d.nz)) (Fin d.nx) K}
    {Fz : Matrix (Fin (d.nx + d.nz)) (Fin d.nz) K} {c : K → Fin (d.nx + d.nz) → K} (ha : Affine e u Fx Fk Fz c)
    (upd : Pt d K → Option (Pt d K) → Option (Pt d K)) (Q : Option (Pt d K)) (t : K) (x : Fin d.nx → K)
    (k : Fin d.s → Fin d.nx → K) (z : Fin d.s → Fin d.nz → K) (l : List (StepOut d K))
    (hrun : Run o h e u upd Q t x k z l) : Exact o h e u t l := by
  induction hrun with
  | nil => exact Exact.nil _
  | cons lin t x k z s l hx hn _ _ ih =>
    refine Exact.cons _ _ _ ?_ ih
    obtain ⟨m, hm⟩ := Nat.exists_eq_succ_of_ne_zero hni
    rw [hm] at hn
    have := C67_affine o h e u _ hr ha x t m _ _ _ _ hn
    simp only [StepOut.pt, hx]
    exact this

/-- **C68 (uniqueness).**  The linearised steps determine the tangent at the end. -/
theorem C68_unique (gg : Pt d K → Fin d.s → Fin (d.nx + d.nz) → K)
    (δu : Fin d.nu → K) (t : K) (l : List (StepOut d K)) (hr : RegularAlong o h e u t l) (δx τ τ' : Fin d.nx → K)
    (h1 : LinRun o h e u gg δu t l δx τ) (h2 : LinRun o h e u gg δu t l δx τ') : τ = τ' := by
  induction h1 generalizing τ' with
  | nil => cases h2; rfl
  | cons t s l δx δk δz σ τ hs _ ih =>
    cases h2 with
    | cons _ _ _ _ δk' δz' σ' _ hs' hr' =>
      have hk : δk - δk' = 0 ∧ δz - δz' = 0 := by
        refine hr.1 _ _ (fun i => ?_)
        rw [tangent_sub o h e u (s.pt t) δx δu]
        have a := hs.eqs i
        have b := hs'.eqs i
        rw [← add_right_cancel (a.trans b.symm)]; simp
      have hk1 := sub_eq_zero.mp hk.1
      have : σ = σ' := by rw [hs.next, hs'.next, hk1]
      subst this
      exact ih hr.2 _ hr'

end Sound

section Sens
variable (o : Opts K) (h t0 : K) (e : Ext d K) (u : Fin d.nu → K)
variable (g : Matrix (Fin (nK d)) (Fin (nK d)) K → Lu (Fin (nK d)) K)

/-- `[I, 0]` -/
def idSeed (d : Dims) (K : Type*) [Field K] : Matrix (Fin d.nx) (Fin (d.nx + d.nu)) K :=
  Matrix.of fun i => Fin.append (fun j : Fin d.nx => if i = j then (1 : K) else 0) (fun _ => 0)

theorem idSeed_mulVec (v : Fin (d.nx + d.nu) → K) : idSeed d K *ᵥ v = fstP v := by
  funext i
  simp only [idSeed, mulVec, dotProduct, Fin.sum_univ_add, Matrix.of_apply, Fin.append_left, Fin.append_right,
    zero_mul, Finset.sum_const_zero, add_zero, fstP]
  simp

/-- the stage sensitivities solve the linearised stage equations -/
theorem dKdxu_lin (hg : ExactLu g) (ss : Nat) (ident : Bool) (xn : Fin d.nx → K)
    (k : Fin (nK d) → K) (hr : Regular o h e u (ptOf d ss h t0 xn k)) (w : Matrix (Fin (nK d)) (Fin (d.nx + d.nu)) K)
    (S : Matrix (Fin d.nx) (Fin (d.nx + d.nu)) K) (hid : ident = true → S = idSeed d K)
    (v : Fin (d.nx + d.nu) → K) (i : Fin d.s) :
    tangent o h e u (ptOf d ss h t0 xn k) (S *ᵥ v) (sndP v)
      (kB d (-(dKdxu d o h t0 e u g ss ident xn k w S *ᵥ v)))
      (zB d (-(dKdxu d o h t0 e u g ss ident xn k w S *ᵥ v))) i = 0 := by
  have hrhs : (if ident then dGdxu d o h t0 e u ss xn k w else
      gead (nK d) d.nu 1 (dGdxu d o h t0 e u ss xn k w) 0 d.nx
        (gemm d.nx (dGdxu d o h t0 e u ss xn k w) S) 0 d.nx) *ᵥ v
      = dGdxu d o h t0 e u ss xn k w *ᵥ cat2 (S *ᵥ v) (sndP v) := by
    cases hi : ident with
    | true => rw [if_pos rfl, hid hi, idSeed_mulVec, cat2_eta]
    | false => rw [if_neg (by simp), rhs_mulVec]
  have hl := luAt_fresh o h t0 e u g hg ss xn k hr
    (dGdxu d o h t0 e u ss xn k w *ᵥ cat2 (S *ᵥ v) (sndP v)) i
  have e1 : dKdxu d o h t0 e u g ss ident xn k w S *ᵥ v
      = solveV (g (dGdK d o h t0 e u ss xn k)) (dGdxu d o h t0 e u ss xn k w *ᵥ cat2 (S *ᵥ v) (sndP v)) := by
    simp only [dKdxu]
    rw [solveM_mulVec, hrhs]
  rw [tangent_split, e1, kB_neg, zB_neg, tangent_neg, hl, dGdxu_mulVec, fst_cat2, snd_cat2]
  abel

theorem forwNext_mulVec (D : Matrix (Fin (nK d)) (Fin (d.nx + d.nu)) K)
    (S : Matrix (Fin d.nx) (Fin (d.nx + d.nu)) K) (v : Fin (d.nx + d.nu) → K) :
    forwNext d o h D S *ᵥ v = nextOf o h (S *ᵥ v) (kB d (-(D *ᵥ v))) := next_mulVec o h D S v

/-- **C68 (forward sensitivities).**  For every list of steps taken, every seed `S` and every direction `v`,
the product of the returned sensitivity matrix with `v` is the tangent obtained by propagating `S v` (and the
control direction) through the linearisation of every step at its computed stage values.  `identity_seed` may
only be set when the seed is `[I, 0]`. -/
theorem C68_forward (hg : ExactLu g)
    (w : Matrix (Fin (nK d)) (Fin (d.nx + d.nu)) K) (ident : Bool) (l : List (StepOut d K))
    (hr : RegularAlong o h e u t0 l)
    (S : Matrix (Fin d.nx) (Fin (d.nx + d.nu)) K) (hid : ident = true → S = idSeed d K)
    (v : Fin (d.nx + d.nu) → K) :
    LinRun o h e u (fun _ _ => 0) (sndP v) t0 l (S *ᵥ v) (forwLoop d o h t0 e u g w ident 0 l S *ᵥ v) := by
  have key : ∀ (l : List (StepOut d K)) (ss : Nat) S, RegularAlong o h e u (t0 + (ss : K) * h) l → (ss = 0 → ident = true → S = idSeed d K) →
      LinRun o h e u (fun _ _ => 0) (sndP v) (t0 + (ss : K) * h) l (S *ᵥ v)
        (forwLoop d o h t0 e u g w ident ss l S *ᵥ v) := by
    intro l
    induction l with
    | nil => intro ss S _ _; exact LinRun.nil _ _
    | cons s l ih =>
      intro ss S hr hS
      have ht : t0 + (ss : K) * h + h = t0 + ((ss + 1 : Nat) : K) * h := by push_cast; ring
      refine LinRun.cons _ _ _ _
        (kB d (-(dKdxu d o h t0 e u g ss (ident && ss == 0) s.x0 s.k w S *ᵥ v)))
        (zB d (-(dKdxu d o h t0 e u g ss (ident && ss == 0) s.x0 s.k w S *ᵥ v)))
        (forwNext d o h (dKdxu d o h t0 e u g ss (ident && ss == 0) s.x0 s.k w S) S *ᵥ v) _ ⟨?_, ?_⟩ ?_
      · intro i
        rw [add_zero]
        exact dKdxu_lin o h t0 e u g hg ss _ s.x0 s.k hr.1 w S
          (fun hh => by simp only [Bool.and_eq_true, beq_iff_eq] at hh; exact hS hh.2 hh.1) v i
      · exact forwNext_mulVec o h _ S v
      · rw [ht]
        exact ih (ss + 1) _ (ht ▸ hr.2) (fun h0 => by omega)
  have := key l 0 S (by simpa using hr) (fun _ => hid)
  simpa using this

/-- **C68 (parameter sensitivities).**  The returned matrix times `δp` is the tangent of the final state for
the parameter direction `δp`, with the state and control at the start held fixed. -/
theorem C68_param (hg : ExactLu g)
    (w : Matrix (Fin (nK d)) (Fin (d.nx + d.nu)) K) (l : List (StepOut d K)) (hr : RegularAlong o h e u t0 l) (δp : Fin d.np → K) :
    LinRun o h e u (fun P i => atStage o h u P i e.fp *ᵥ δp) 0 t0 l 0
      (spLoop d o h t0 e u g w 0 l 0 *ᵥ δp) := by
  have key : ∀ (l : List (StepOut d K)) (ss : Nat) S, RegularAlong o h e u (t0 + (ss : K) * h) l →
      LinRun o h e u (fun P i => atStage o h u P i e.fp *ᵥ δp) 0 (t0 + (ss : K) * h) l (S *ᵥ δp)
        (spLoop d o h t0 e u g w ss l S *ᵥ δp) := by
    intro l
    induction l with
    | nil => intro ss S _; exact LinRun.nil _ _
    | cons s l ih =>
      intro ss S hr
      have ht : t0 + (ss : K) * h + h = t0 + ((ss + 1 : Nat) : K) * h := by push_cast; ring
      simp only [spLoop]
      set R := (loop d.s (fun ii M => gead (d.nx + d.nz) d.np 1
        (e.fp (xt d o h s.x0 s.k ii) (kin d s.k ii) u (zin d s.k ii) (tcur o h t0 ss ii)) 0 0 M
          (ii * (d.nx + d.nz)) 0)
        (gemm d.nx (dGdxu d o h t0 e u ss s.x0 s.k w) S)) with hR
      have hrow : ∀ i : Fin d.s, rB d (R *ᵥ δp) i
          = atStage o h u (s.pt (t0 + (ss : K) * h)) i e.fx *ᵥ (S *ᵥ δp)
            + atStage o h u (s.pt (t0 + (ss : K) * h)) i e.fp *ᵥ δp := by
        intro i
        have hb : blk d.np 0 δp = δp := by
          funext c; simp only [blk, Nat.zero_add]; rw [rd_lt _ _ c.isLt]
        have key2 : ∀ n, n ≤ d.s → rB d (loop n (fun ii M => gead (d.nx + d.nz) d.np 1
            (e.fp (xt d o h s.x0 s.k ii) (kin d s.k ii) u (zin d s.k ii) (tcur o h t0 ss ii)) 0 0 M
              (ii * (d.nx + d.nz)) 0)
            (gemm d.nx (dGdxu d o h t0 e u ss s.x0 s.k w) S) *ᵥ δp) i
            = rB d (gemm d.nx (dGdxu d o h t0 e u ss s.x0 s.k w) S *ᵥ δp) i
              + if i.val < n then atStage o h u (ptOf d ss h t0 s.x0 s.k) i e.fp *ᵥ δp else 0 := by
          intro n
          induction n with
          | zero => intro _; simp [loop_zero]
          | succ n ihn =>
            intro hn
            rw [loop_succ]
            have ihn := ihn (by omega)
            simp only [rB] at ihn ⊢
            rw [gead_blk (s := d.s) 1 _ _ i n i.isLt 0 (by simp), hb, ihn, one_smul, add_assoc]
            congr 1
            by_cases hin : i.val = n
            · subst hin
              rw [if_neg (by omega), if_pos rfl, if_pos (by omega), zero_add, at_eq o h t0 u ss s.x0 s.k i e.fp]
            · rw [if_neg hin, add_zero]
              by_cases h2 : i.val < n
              · rw [if_pos h2, if_pos (by omega)]
              · rw [if_neg h2, if_neg (by omega)]
        rw [hR, key2 d.s le_rfl, if_pos i.isLt]
        congr 1
        have e1 : gemm d.nx (dGdxu d o h t0 e u ss s.x0 s.k w) S *ᵥ δp
            = dGdxu d o h t0 e u ss s.x0 s.k w *ᵥ cat2 (S *ᵥ δp) (0 : Fin d.nu → K) := by
          rw [gemm_eq, ← Matrix.mulVec_mulVec]
          funext r
          simp only [mulVec, dotProduct, Fin.sum_univ_add, cat2, Fin.append_left, Fin.append_right,
            Pi.zero_apply, mul_zero, Finset.sum_const_zero, add_zero, Matrix.of_apply]
        rw [e1, dGdxu_mulVec, fst_cat2, snd_cat2, Matrix.mulVec_zero, add_zero]
        rfl
      refine LinRun.cons _ _ _ _
        (kB d (-(solveM (g (dGdK d o h t0 e u ss s.x0 s.k)) R *ᵥ δp)))
        (zB d (-(solveM (g (dGdK d o h t0 e u ss s.x0 s.k)) R *ᵥ δp)))
        (spNext d o h t0 e u g ss s.x0 s.k w S *ᵥ δp) _ ⟨?_, ?_⟩ ?_
      · intro i
        have hl := luAt_fresh o h t0 e u g hg ss s.x0 s.k hr.1 (R *ᵥ δp) i
        rw [tangent_split, solveM_mulVec, kB_neg, zB_neg, tangent_neg]
        change - tangent o h e u (ptOf d ss h t0 s.x0 s.k) 0 0 _ _ i + _ + _ = _
        rw [hl, hrow, Matrix.mulVec_zero, add_zero]
        abel
      · exact next_mulVec o h _ S δp
      · rw [ht]; exact ih (ss + 1) _ (ht ▸ hr.2)
  have := key l 0 0 (by simpa using hr)
  simpa using this

/-- **C69 (adjoint sensitivities).**  For every list of steps and every linearised propagation of
`(δx, δu)` to `τ`, the returned adjoint satisfies `S_adj · (δx, δu) = λ_x · τ + λ_u · δu` where
`λ = (λ_x, λ_u)` is the adjoint seed: it is the transpose of the forward sensitivities. -/
theorem C69_adjoint (hg : ExactLu g)
    (w : Matrix (Fin (nK d)) (Fin (d.nx + d.nu)) K) (l : List (StepOut d K)) (hr : RegularAlong o h e u t0 l) (lam : Fin (d.nx + d.nu) → K)
    (v : Fin (d.nx + d.nu) → K) (τ : Fin d.nx → K)
    (hl : LinRun o h e u (fun _ _ => 0) (sndP v) t0 l (fstP v) τ) :
    adjLoop d o h t0 e u g w 0 l lam ⬝ᵥ v = fstP lam ⬝ᵥ τ + sndP lam ⬝ᵥ sndP v := by
  have split : ∀ a b : Fin (d.nx + d.nu) → K, a ⬝ᵥ b = fstP a ⬝ᵥ fstP b + sndP a ⬝ᵥ sndP b := by
    intro a b; simp only [dotProduct, Fin.sum_univ_add]; rfl
  have key : ∀ t l (δx : Fin d.nx → K) τ, LinRun o h e u (fun _ _ => 0) (sndP v) t l δx τ →
      RegularAlong o h e u t l → ∀ ss : Nat, t = t0 + (ss : K) * h →
      adjLoop d o h t0 e u g w ss l lam ⬝ᵥ cat2 δx (sndP v) = fstP lam ⬝ᵥ τ + sndP lam ⬝ᵥ sndP v := by
    intro t l δx τ hrun
    induction hrun with
    | nil t δx => intro _ ss _; simp only [adjLoop]; rw [split, fst_cat2, snd_cat2]
    | cons t s l δx δk δz σ τ hs _ ih =>
      intro hr ss ht
      have hn := ih hr.2 (ss + 1) (by rw [ht]; push_cast; ring)
      simp only [adjLoop]
      set lm := adjLoop d o h t0 e u g w (ss + 1) l lam with hlm
      rw [← hn]
      simp only [adjStep]
      rw [add_dotProduct, tdot']
      -- `dG_dxu (δx, δu) = - dG_dK δK`
      have hG : dGdxu d o h t0 e u ss s.x0 s.k w *ᵥ cat2 δx (sndP v)
          = - (dGdK d o h t0 e u ss s.x0 s.k *ᵥ join d δk δz) := by
        refine rB_ext (fun i => ?_)
        rw [dGdxu_mulVec, rB_neg, dGdK_mulVec, kB_join, zB_join, fst_cat2, snd_cat2]
        have := hs.eqs i
        rw [tangent_split, add_zero] at this
        have hp : s.pt t = ptOf d ss h t0 s.x0 s.k := by rw [ht]; rfl
        rw [hp] at this
        exact eq_neg_of_add_eq_zero_right this
      rw [hG, dotProduct_neg, ← tdot']
      have hT : (dGdK d o h t0 e u ss s.x0 s.k)ᵀ *ᵥ lamK d o h t0 e u g ss s lm
          = loop d.s (fun jj v => dveccpsc d.nx (-h * o.b_vec jj) lm 0 v (jj * d.nx)) 0 := by
        simp only [lamK]
        exact Acados.Gnsf.mulVec_solveT (hg _ (dGdK_isUnit o h t0 e u (by rw [ht] at hr; exact hr.1))) _
      rw [hT]
      have hsum : (loop d.s (fun jj v => dveccpsc d.nx (-h * o.b_vec jj) lm 0 v (jj * d.nx)) 0)
          ⬝ᵥ join d δk δz = - (h * ∑ j : Fin d.s, o.b_vec j.val * (fstP lm ⬝ᵥ δk j)) := by
        rw [dot_blocks, kB_join, zB_join]
        have hb := lam_blocks (d := d) (fun jj => -h * o.b_vec jj) lm
        have h2 : (∑ i : Fin d.s, zB d (loop d.s (fun jj v => dveccpsc d.nx (-h * o.b_vec jj) lm 0 v (jj * d.nx))
            0) i ⬝ᵥ δz i) = 0 := Finset.sum_eq_zero fun i _ => by rw [(hb i).2, zero_dotProduct]
        rw [h2, add_zero, Finset.mul_sum, ← Finset.sum_neg_distrib]
        refine Finset.sum_congr rfl fun i _ => ?_
        rw [(hb i).1, smul_dotProduct, smul_eq_mul]; ring
      rw [hsum, neg_neg, split lm (cat2 σ _), split lm (cat2 δx _), fst_cat2, snd_cat2, fst_cat2, snd_cat2,
        hs.next]
      have hx : fstP lm ⬝ᵥ nextOf o h δx δk
          = fstP lm ⬝ᵥ δx + h * ∑ j : Fin d.s, o.b_vec j.val * (fstP lm ⬝ᵥ δk j) := by
        have : nextOf o h δx δk = δx + h • ∑ j : Fin d.s, o.b_vec j.val • δk j := by
          funext r
          simp only [nextOf, Pi.add_apply, Pi.smul_apply, Finset.sum_apply, smul_eq_mul]
        rw [this, dotProduct_add, dotProduct_smul, dotProduct_sum, smul_eq_mul]
        congr 2
        refine Finset.sum_congr rfl fun j _ => ?_
        rw [dotProduct_smul, smul_eq_mul]
      rw [hx]; ring
  have := key t0 l (fstP v) τ hl hr 0 (by simp)
  rwa [cat2_eta] at this

end Sens
/-! ### The hypotheses are met

Implicit Euler with step `1/2` for the differential-algebraic equation `ẋ = z`, `z = x + u²`. -/

abbrev dX : Dims := ⟨1, 1, 1, 1, 1⟩
def oX (reuse : Bool) : Opts ℚ := ⟨fun _ => 1, fun _ => 1, fun _ => 1, 3, 1 / 100, reuse⟩
/-- second derivatives of the example: only `∂²f_2/∂u² = -2` -/
def f2X : Second dX ℚ := fun _ _ _ _ _ r => fun a b => if r.val = 1 ∧ a.val = 3 ∧ b.val = 3 then -2 else 0
def eX : Ext dX ℚ where
  f x k u z _ := ![k 0 - z 0, z 0 - x 0 - u 0 ^ 2]
  fx _ _ _ _ _ := !![0; -1]
  fk _ _ _ _ _ := !![1; 0]
  fu _ _ u _ _ := !![0; -2 * u 0]
  fz _ _ _ _ _ := !![-1; 1]
  fp _ _ _ _ _ := !![0; -1]
  hess x k u z lam t := ∑ r, lam r • f2X x k u z t r

theorem regularX (reuse : Bool) (u : Fin 1 → ℚ) (P : Pt dX ℚ) : Regular (oX reuse) (1 / 2) eX u P := by
  intro δk δz hz
  have h0 := congrFun (hz 0) 0
  have h1 := congrFun (hz 0) 1
  simp [tangent, atStage, eX, stageOf, oX, dotProduct, Matrix.vecHead, Matrix.vecTail] at h0 h1
  have hk : δk 0 0 = 0 := by linarith
  have hz' : δz 0 0 = 0 := by linarith
  constructor
  · funext i c; rw [Subsingleton.elim i 0, Subsingleton.elim c 0]; exact hk
  · funext i c; rw [Subsingleton.elim i 0, Subsingleton.elim c 0]; exact hz'

theorem regularAlongX (reuse : Bool) (u : Fin 1 → ℚ) (t : ℚ) (l : List (StepOut dX ℚ)) :
    RegularAlong (oX reuse) (1 / 2) eX u t l := by
  induction l generalizing t with
  | nil => trivial
  | cons s l ih => exact ⟨regularX reuse u _, ih _⟩

theorem affineX (u : Fin 1 → ℚ) :
    Affine eX u !![0; -1] !![1; 0] !![-1; 1] (fun _ => ![0, -(u 0 ^ 2)]) where
  f x k z t := by
    funext r
    fin_cases r
    · simp [eX, dotProduct, Matrix.vecHead, Matrix.vecTail]; ring
    · simp [eX, dotProduct, Matrix.vecHead, Matrix.vecTail]; ring
  fx _ _ _ _ := rfl
  fk _ _ _ _ := rfl
  fz _ _ _ _ := rfl

/-- exact factorisation for the example: `G_K = (1, -1; -1/2, 1)` -/
noncomputable def gX (M : Matrix (Fin (nK dX)) (Fin (nK dX)) ℚ) : Lu (Fin (nK dX)) ℚ := ⟨1, 1, M, 1, M⁻¹⟩

theorem exactX : ExactLu (d := dX) gX := exactLu_inhabited

/-- two steps, from the state `1` and zero stage guess, with and without Jacobian reuse -/
example (reuse sens : Bool) (lu : Lu (Fin (nK dX)) ℚ) (u : Fin 1 → ℚ) :
    Run (oX reuse) (1 / 2) eX u (updOf (oX reuse).jac_reuse sens)
      (if (oX reuse).jac_reuse then some ⟨![1], kB dX 0, zB dX 0, 0⟩ else none) 0 ![1] (kB dX 0) (zB dX 0)
      (simulate dX (oX reuse) (1 / 2) 0 eX u gX sens 2 0 lu 0 0 ![1]) :=
  C67_run (oX reuse) (1 / 2) 0 eX u gX exactX sens 2 lu 0 0 ![1]

/-- … and they solve the implicit Euler equations exactly -/
example (reuse sens : Bool) (lu : Lu (Fin (nK dX)) ℚ) (u : Fin 1 → ℚ) :
    Exact (oX reuse) (1 / 2) eX u 0 (simulate dX (oX reuse) (1 / 2) 0 eX u gX sens 2 0 lu 0 0 ![1]) :=
  C67_affine_run (oX reuse) (1 / 2) eX u (regularX reuse u) (by simp [oX]) (affineX u) _ _ _ _ _ _ _
    (C67_run (oX reuse) (1 / 2) 0 eX u gX exactX sens 2 lu 0 0 ![1])

/-- a solved point: `x = 1`, `u = 1`: `k = z = 1 + k/2 + 1`, `k = 4` -/
example : Solves (d := dX) (oX false) (1 / 2) eX ![1] ⟨![1], ![![4]], ![![4]], 0⟩ := by
  intro i
  rw [Subsingleton.elim i 0]
  funext r
  fin_cases r
  · simp [atStage, eX]
  · simp [atStage, eX, stageOf, oX]; norm_num

/-- the tangent of one implicit Euler step of the example: `δx ↦ 2 δx + 2 u δu` (here `u = 1`) -/
example (lu : Lu (Fin (nK dX)) ℚ) (a b : ℚ) : LinStep (d := dX) (oX false) (1 / 2) eX ![1]
    ((step dX (oX false) (1 / 2) 0 eX ![1] gX 0 lu 0 0 ![1]).pt 0) 0 ![a] ![b] ![![2 * a + 4 * b]] ![![2 * a + 4 * b]]
    ![2 * a + 2 * b] where
  eqs i := by
    rw [Subsingleton.elim i 0]
    funext r
    fin_cases r
    · simp [tangent, atStage, eX, dotProduct, Matrix.vecHead, Matrix.vecTail]
    · simp [tangent, atStage, eX, stageOf, oX, dotProduct, Matrix.vecHead, Matrix.vecTail]; ring
  next := by
    funext r
    rw [Subsingleton.elim r 0]
    simp [nextOf, oX]; ring

/-- sensitivities of the example through the theorems -/
example (l : List (StepOut dX ℚ)) (u : Fin 1 → ℚ) (v : Fin 2 → ℚ) :
    LinRun (d := dX) (oX true) (1 / 2) eX u (fun _ _ => 0) (sndP v) 0 l (idSeed dX ℚ *ᵥ v)
      (forwLoop dX (oX true) (1 / 2) 0 eX u gX 0 true 0 l (idSeed dX ℚ) *ᵥ v) :=
  C68_forward (oX true) (1 / 2) 0 eX u gX exactX 0 true l (regularAlongX true u 0 l) _ (fun _ => rfl) v

/-- … so the adjoint sensitivities are the transposed forward ones -/
example (l : List (StepOut dX ℚ)) (u : Fin 1 → ℚ) (lam v : Fin 2 → ℚ) :
    adjLoop dX (oX true) (1 / 2) 0 eX u gX 0 0 l lam ⬝ᵥ v
      = fstP (m := 1) (n := 1) lam ⬝ᵥ (forwLoop dX (oX true) (1 / 2) 0 eX u gX 0 true 0 l (idSeed dX ℚ) *ᵥ v)
        + sndP (m := 1) (n := 1) lam ⬝ᵥ sndP (m := 1) (n := 1) v :=
  C69_adjoint (oX true) (1 / 2) 0 eX u gX exactX 0 l (regularAlongX true u 0 l) lam v _ (by
    have := C68_forward (oX true) (1 / 2) 0 eX u gX exactX 0 true l (regularAlongX true u 0 l) _ (fun _ => rfl) v
    rwa [idSeed_mulVec] at this)

/-! ### Steps that do not solve the stage equations -/

abbrev dQ : Dims := ⟨1, 1, 0, 0, 0⟩
def oQ : Opts ℚ := ⟨fun _ => 1, fun _ => 1, fun _ => 1, 1, 1 / 100, false⟩
/-- `ẋ = x²` -/
def eQ : Ext dQ ℚ where
  f x k _ _ _ := ![k 0 - x 0 ^ 2]
  fx x _ _ _ _ := !![-2 * x 0]
  fk _ _ _ _ _ := !![1]
  fu _ _ _ _ _ := 0
  fz _ _ _ _ _ := 0
  fp _ _ _ _ _ := 0
  hess _ _ _ _ _ _ := 0

/-- exact factorisation of `1 × 1` matrices -/
def gQ (M : Matrix (Fin (nK dQ)) (Fin (nK dQ)) ℚ) : Lu (Fin (nK dQ)) ℚ := ⟨1, 1, M, 1, fun _ _ => (M 0 0)⁻¹⟩

theorem exactQ : ExactLu (d := dQ) gQ := by
  intro M hM
  let : Unique (Fin (nK dQ)) := inferInstanceAs (Unique (Fin 1))
  have hdet : M 0 0 ≠ 0 := by
    have h1 := ((Matrix.isUnit_iff_isUnit_det M).mp hM).ne_zero
    intro h0; apply h1
    exact (Matrix.det_unique M).trans h0
  refine ⟨by simp [gQ], by simp [gQ], ?_⟩
  ext i j
  rw [Subsingleton.elim i 0, Subsingleton.elim j 0]
  rw [Matrix.mul_apply, Fintype.sum_unique]
  exact mul_inv_cancel₀ hdet

/-- **C67, convergence is false.**  The step returned after `newton_iter` iterations need not solve the
stage equations, and `sim_irk` returns success all the same (line 2268): implicit Euler with `h = 1/4` for
`ẋ = x²` from `x = 1` with one iteration gives the stage value `2`, whose residual is `-1/4`. -/
theorem C67_unconverged_false : ExactLu (d := dQ) gQ
    ∧ (step dQ oQ (1 / 4) 0 eQ ![] gQ 0 (gQ 0) 0 0 ![1]).k = (fun _ => 2)
    ∧ ¬ Solves oQ (1 / 4) eQ ![] ((step dQ oQ (1 / 4) 0 eQ ![] gQ 0 (gQ 0) 0 0 ![1]).pt 0) := by
  refine ⟨exactQ, by decide +kernel, ?_⟩
  intro hs
  have := congrFun (hs 0) 0
  revert this
  decide +kernel

end Acados.Irk
