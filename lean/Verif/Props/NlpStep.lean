import Verif.Model.NlpStep
import Mathlib.Algebra.BigOperators.Ring.Finset
import Mathlib.Algebra.Order.BigOperators.Ring.Finset
import Mathlib.Algebra.Order.Field.Basic
import Mathlib.Tactic.Linarith
import Mathlib.Tactic.NormNum
import Mathlib.Tactic.Ring
import Mathlib.Tactic.FieldSimp
import Mathlib.Tactic.LinearCombination
/-!
# Properties C27 (step update), C28 (Anderson acceleration), C54 (OpenMP schedules)
-/
namespace Acados.Step
open Finset

/-! ## C27 -/

section
variable {K : Type*} [CommRing K]

/-- **C27** (what a step does, entry by entry): primal variables and slacks move by `alpha` times
the QP step, multipliers are replaced or moved, algebraic variables follow their linearisation. -/
theorem C27_entries (d : Dims) (mem : Alg K) (start dest : Out K) (qp : QpOut K) (alpha : K)
    (full : Bool) (i : Nat) (hi : i ≤ d.N) :
    let o := updateVars d mem start qp alpha full dest
    (∀ j < d.nv i, o.ux i j = start.ux i j + alpha * qp.ux i j) ∧
    (∀ j < 2 * d.ni i, o.lam i j =
      if full then qp.lam i j else (1 - alpha) * start.lam i j + alpha * qp.lam i j) ∧
    (i < d.N → ∀ j < d.nx (i + 1), o.pi i j =
      if full then qp.pi i j else (1 - alpha) * start.pi i j + alpha * qp.pi i j) ∧
    (i < d.N → ∀ j < d.nz i, o.z i j = mem.zAlg i j +
      alpha * ∑ r ∈ range (d.nu i + d.nx i), mem.dzduxt i r j * qp.ux i r) := by
  refine ⟨?_, ?_, ?_, ?_⟩
  · intro j hj
    simp only [updateVars, if_pos hi, axpy, if_pos hj]; ring
  · intro j hj
    cases full <;> simp [updateVars, if_pos hi, axpby, veccp, if_pos hj]
  · intro hN j hj
    cases full <;> simp [updateVars, if_pos hN, axpby, veccp, if_pos hj]
  · intro hN j hj
    simp [updateVars, if_pos hN, gemvT, if_pos hj]

/-- **C27** (frame): entries outside the stage dimensions and stages beyond the horizon are not
written. -/
theorem C27_frame (d : Dims) (mem : Alg K) (start dest : Out K) (qp : QpOut K) (alpha : K)
    (full : Bool) (i j : Nat) :
    let o := updateVars d mem start qp alpha full dest
    (¬ (i ≤ d.N ∧ j < d.nv i) → o.ux i j = dest.ux i j) ∧
    (¬ (i ≤ d.N ∧ j < 2 * d.ni i) → o.lam i j = dest.lam i j) ∧
    (¬ (i < d.N ∧ j < d.nx (i + 1)) → o.pi i j = dest.pi i j) ∧
    (¬ (i < d.N ∧ j < d.nz i) → o.z i j = dest.z i j) := by
  refine ⟨?_, ?_, ?_, ?_⟩ <;> intro h <;> rw [not_and] at h <;>
    simp only [updateVars, ite_apply, axpy, axpby, veccp, gemvT] <;> split_ifs <;> simp_all

/-- **C27** (zero step): without `full_step_dual` a zero step leaves primal variables and
multipliers unchanged. -/
theorem C27_zero_step (d : Dims) (mem : Alg K) (o : Out K) (qp : QpOut K) :
    (updateVars d mem o qp 0 false o).ux = o.ux ∧ (updateVars d mem o qp 0 false o).lam = o.lam ∧
    (updateVars d mem o qp 0 false o).pi = o.pi := by
  refine ⟨?_, ?_, ?_⟩ <;> funext i j <;>
    simp [updateVars, ite_apply, axpy, axpby]

/-- **C27** (full step): a step of length one takes the QP solution. -/
theorem C27_full_step (d : Dims) (mem : Alg K) (start dest : Out K) (qp : QpOut K) (full : Bool)
    (i : Nat) (hi : i ≤ d.N) :
    let o := updateVars d mem start qp 1 full dest
    (∀ j < d.nv i, o.ux i j = start.ux i j + qp.ux i j) ∧
    (∀ j < 2 * d.ni i, o.lam i j = qp.lam i j) ∧
    (i < d.N → ∀ j < d.nx (i + 1), o.pi i j = qp.pi i j) := by
  obtain ⟨h1, h2, h3, -⟩ := C27_entries d mem start dest qp 1 full i hi
  refine ⟨fun j hj => by rw [h1 j hj, one_mul], fun j hj => ?_, fun hN j hj => ?_⟩
  · rw [h2 j hj]; cases full <;> simp
  · rw [h3 hN j hj]; cases full <;> simp

/-- **C27** (separate trial iterate): on all entries of the problem the result does not depend on
whether the new iterate is written in place or into a trial iterate. -/
theorem C27_in_place (d : Dims) (mem : Alg K) (start dest : Out K) (qp : QpOut K) (alpha : K)
    (full : Bool) (i : Nat) (hi : i ≤ d.N) :
    let a := updateVars d mem start qp alpha full start
    let b := updateVars d mem start qp alpha full dest
    (∀ j < d.nv i, a.ux i j = b.ux i j) ∧ (∀ j < 2 * d.ni i, a.lam i j = b.lam i j) ∧
    (i < d.N → ∀ j < d.nx (i + 1), a.pi i j = b.pi i j) ∧
    (i < d.N → ∀ j < d.nz i, a.z i j = b.z i j) := by
  obtain ⟨a1, a2, a3, a4⟩ := C27_entries d mem start start qp alpha full i hi
  obtain ⟨b1, b2, b3, b4⟩ := C27_entries d mem start dest qp alpha full i hi
  exact ⟨fun j hj => by rw [a1 j hj, b1 j hj], fun j hj => by rw [a2 j hj, b2 j hj],
    fun hN j hj => by rw [a3 hN j hj, b3 hN j hj], fun hN j hj => by rw [a4 hN j hj, b4 hN j hj]⟩

/-- an affine function of all primal variables of the horizon -/
def affine (d : Dims) (c : K) (a : Nat → Nat → K) (ux : Nat → Nat → K) : K :=
  c + ∑ i ∈ range (d.N + 1), ∑ j ∈ range (d.nv i), a i j * ux i j

/-- **C27** (affine functions): along a step every affine function (a linear constraint, one row of
linear dynamics, a bound) takes the value `(1 - alpha) · old + alpha · value at the QP solution`. -/
theorem C27_affine (d : Dims) (mem : Alg K) (start dest : Out K) (qp : QpOut K) (alpha : K)
    (full : Bool) (c : K) (a : Nat → Nat → K) :
    affine d c a (updateVars d mem start qp alpha full dest).ux
      = (1 - alpha) * affine d c a start.ux +
        alpha * affine d c a (fun i j => start.ux i j + qp.ux i j) := by
  unfold affine
  have e : ∑ i ∈ range (d.N + 1), ∑ j ∈ range (d.nv i),
        a i j * (updateVars d mem start qp alpha full dest).ux i j
      = (1 - alpha) * (∑ i ∈ range (d.N + 1), ∑ j ∈ range (d.nv i), a i j * start.ux i j) +
        alpha * ∑ i ∈ range (d.N + 1), ∑ j ∈ range (d.nv i),
          a i j * (start.ux i j + qp.ux i j) := by
    rw [mul_sum, mul_sum, ← sum_add_distrib]
    refine sum_congr rfl fun i hi => ?_
    rw [mul_sum, mul_sum, ← sum_add_distrib]
    refine sum_congr rfl fun j hj => ?_
    rw [(C27_entries d mem start dest qp alpha full i
      (by have := mem_range.1 hi; omega)).1 j (mem_range.1 hj)]
    ring
  rw [e]; ring

/-- the primal-dual "delta" update of the acceleration code agrees with the plain update -/
theorem C27_delta_update (d : Dims) (mem : Alg K) (o : Out K) (qp : QpOut K) (alpha : K) :
    updateDelta d mem alpha (toDelta d o qp) o = updateVars d mem o qp alpha false o := by
  ext i j <;>
    simp only [updateDelta, toDelta, updateVars, ite_apply, axpy, axpby, vecad, gemvT,
      Bool.false_eq_true, if_false] <;>
    split_ifs <;> ring

/-- copying an iterate and restoring it gives back every entry of the problem -/
theorem C27_copy (d : Dims) (src dst : Out K) (i : Nat) (hi : i ≤ d.N) :
    let o := copyOut d src dst
    (∀ j < d.nv i, o.ux i j = src.ux i j) ∧ (∀ j < 2 * d.ni i, o.lam i j = src.lam i j) ∧
    (∀ j < d.nz i, o.z i j = src.z i j) ∧
    (i < d.N → ∀ j < d.nx (i + 1), o.pi i j = src.pi i j) := by
  refine ⟨?_, ?_, ?_, ?_⟩ <;> intros <;> simp [copyOut, veccp, *]

/-- a step computed from the QP initialised with the current iterate (zero primal step, current
multipliers) changes nothing, for every step length and both dual modes -/
theorem C27_warm_start_fixpoint (d : Dims) (mem : Alg K) (o : Out K) (qp : QpOut K)
    (t : Nat → Nat → K) (alpha : K) (full : Bool) (i : Nat) (hi : i ≤ d.N) :
    let o' := updateVars d mem o (initQpFromNlp d o t qp) alpha full o
    (∀ j < d.nv i, o'.ux i j = o.ux i j) ∧ (∀ j < 2 * d.ni i, o'.lam i j = o.lam i j) ∧
    (i < d.N → ∀ j < d.nx (i + 1), o'.pi i j = o.pi i j) := by
  obtain ⟨h1, h2, h3, -⟩ := C27_entries d mem o o (initQpFromNlp d o t qp) alpha full i hi
  refine ⟨fun j hj => ?_, fun j hj => ?_, fun hN j hj => ?_⟩
  · rw [h1 j hj]; simp [initQpFromNlp, hi, vecse, hj]
  · rw [h2 j hj]; cases full <;> simp [initQpFromNlp, hi, veccp, hj]; ring
  · rw [h3 hN j hj]; cases full <;> simp [initQpFromNlp, hN, veccp, hj]; ring

end

section
variable {K : Type*} [Field K] [LinearOrder K] [IsStrictOrderedRing K]

/-- **C27** (multiplier signs): nonnegative multipliers stay nonnegative for every step length in
`[0,1]`. -/
theorem C27_multipliers_nonneg (d : Dims) (mem : Alg K) (start dest : Out K) (qp : QpOut K)
    (alpha : K) (full : Bool) (h0 : 0 ≤ alpha) (h1 : alpha ≤ 1) (i : Nat) (hi : i ≤ d.N)
    (hs : ∀ j < 2 * d.ni i, 0 ≤ start.lam i j) (hq : ∀ j < 2 * d.ni i, 0 ≤ qp.lam i j) :
    ∀ j < 2 * d.ni i, 0 ≤ (updateVars d mem start qp alpha full dest).lam i j := by
  intro j hj
  rw [(C27_entries d mem start dest qp alpha full i hi).2.1 j hj]
  cases full
  · simp only [Bool.false_eq_true, if_false]
    have := hs j hj; have := hq j hj
    have : 0 ≤ 1 - alpha := by linarith
    positivity
  · exact hq j hj

/-- **C27** (linear constraints): a linear inequality satisfied by the iterate and by the QP
solution is satisfied after the step; a linear equality satisfied by the QP solution is satisfied
after a full step, whatever the iterate was. -/
theorem C27_linear_constraints (d : Dims) (mem : Alg K) (start dest : Out K) (qp : QpOut K)
    (alpha : K) (full : Bool) (c : K) (a : Nat → Nat → K) :
    (0 ≤ alpha → alpha ≤ 1 → affine d c a start.ux ≤ 0 →
      affine d c a (fun i j => start.ux i j + qp.ux i j) ≤ 0 →
      affine d c a (updateVars d mem start qp alpha full dest).ux ≤ 0) ∧
    (affine d c a (fun i j => start.ux i j + qp.ux i j) = 0 →
      affine d c a (updateVars d mem start qp 1 full dest).ux = 0) := by
  refine ⟨fun h0 h1 h2 h3 => ?_, fun h => ?_⟩
  · rw [C27_affine]
    nlinarith [mul_nonneg h0 (neg_nonneg.2 h3), mul_nonneg (sub_nonneg.2 h1) (neg_nonneg.2 h2)]
  · rw [C27_affine, h]; ring

/-- a concrete two-stage problem meets the hypotheses, with a strictly damped step -/
example : ∃ (d : Dims) (mem : Alg ℚ) (o : Out ℚ) (qp : QpOut ℚ) (a : Nat → Nat → ℚ),
    affine d (-1) a o.ux ≤ 0 ∧ affine d (-1) a (fun i j => o.ux i j + qp.ux i j) ≤ 0 ∧
    affine d (-1) a (updateVars d mem o qp (1/2) false o).ux = -1/2 ∧
    (updateVars d mem o qp (1/2) false o).lam 0 1 = 3/2 :=
  ⟨⟨1, fun _ => 1, fun _ => 1, fun _ => 0, fun _ => 0, fun _ => 1⟩, ⟨fun _ _ _ => 0, fun _ _ => 0⟩,
    ⟨fun _ _ => 0, fun _ _ => 0, fun _ _ => 0, fun _ _ => 1⟩,
    ⟨fun _ _ => 1, fun _ _ => 0, fun _ _ => 2, fun _ _ => 0⟩,
    fun i j => if i = 0 ∧ j = 0 then 1 else 0, by decide +kernel, by decide +kernel,
    by decide +kernel, by decide +kernel⟩

/-! ## C28 -/

/-- all entries of two iterates agree / entrywise relation on the primal and dual variables of the
problem -/
def Entries (d : Dims) (P : (get : Out K → K) → Prop) : Prop :=
  (∀ i ≤ d.N, ∀ j < d.nv i, P (fun o => o.ux i j)) ∧
  (∀ i ≤ d.N, ∀ j < 2 * d.ni i, P (fun o => o.lam i j)) ∧
  (∀ i < d.N, ∀ j < d.nx (i + 1), P (fun o => o.pi i j))

/-- a QP step read as an iterate (to compare entries) -/
def QpOut.asOut (q : QpOut K) : Out K := { ux := q.ux, z := fun _ _ => 0, pi := q.pi, lam := q.lam }

/-- **C28** (restart): in the first iteration, and whenever the residual exceeds the activation
threshold, the update is the plain step of the chosen length. -/
theorem C28_restart (d : Dims) (mem : Alg K) (alpha : K) (qp : QpOut K) (o : Out K)
    (am : Anderson K) :
    (andersonUpdate d mem alpha true qp o am).1 = updateVars d mem o qp alpha false o := by
  simp only [andersonUpdate, if_true]
  exact C27_delta_update d mem o qp alpha

/-- the steps `d_k` the acceleration works with: primal step and change of the multipliers -/
def delta (d : Dims) (o : Out K) (qp : QpOut K) : Out K := (toDelta d o qp).asOut

/-- entry formula of `updateDelta` -/
theorem updateDelta_entries (d : Dims) (mem : Alg K) (alpha : K) (s : QpOut K) (o : Out K) :
    Entries d (fun get => get (updateDelta d mem alpha s o) = get o + alpha * get s.asOut) := by
  refine ⟨?_, ?_, ?_⟩ <;> intro i hi j hj <;>
    simp [updateDelta, axpy, QpOut.asOut, hi, hj, add_comm]

/-- the displacement applied by any call is `alpha` times the stored Anderson step -/
theorem anderson_applied (d : Dims) (mem : Alg K) (alpha : K) (r : Bool) (qp : QpOut K) (o : Out K)
    (am : Anderson K) :
    Entries d (fun get => get (andersonUpdate d mem alpha r qp o am).1
      = get o + alpha * get (andersonUpdate d mem alpha r qp o am).2.step.asOut) := by
  cases r
  · simp only [andersonUpdate, Bool.false_eq_true, if_false]
    exact updateDelta_entries d mem alpha _ o
  · simp only [andersonUpdate, if_true]
    exact updateDelta_entries d mem alpha _ o

/-- **C28** (exact update): the accelerated iterate is
`w_k - γ (w_k - w_{k-1}) + α² ((1 - γ) d_k + γ d_{k-1})`, for primal and dual variables, where
`d_{k-1}` and `d_k` are the two last QP steps and `w_{k-1}`, `w_k` the two last iterates. -/
theorem C28_exact_update (d : Dims) (mem1 mem2 : Alg K) (alpha : K) (r : Bool) (qp1 qp2 : QpOut K)
    (o0 : Out K) (a0 : Anderson K) :
    let s1 := andersonUpdate d mem1 alpha r qp1 o0 a0
    let s2 := andersonUpdate d mem2 alpha false qp2 s1.1 s1.2
    let g := andersonGamma d (toDelta d s1.1 qp2)
      (qpAxpy d (-1) (toDelta d o0 qp1) (toDelta d s1.1 qp2) (toDelta d s1.1 qp2))
    Entries d (fun get => get s2.1 = get s1.1 - g * (get s1.1 - get o0) +
      alpha ^ 2 * ((1 - g) * get (delta d s1.1 qp2) + g * get (delta d o0 qp1))) := by
  intro s1 s2 g
  have hprev : s1.2.prev = toDelta d o0 qp1 := by
    cases r <;> simp [s1, andersonUpdate]
  have h1 := anderson_applied d mem1 alpha r qp1 o0 a0
  have h2 := anderson_applied d mem2 alpha false qp2 s1.1 s1.2
  have hstep : s2.2.step = qpAdd d (alpha - g * alpha) (toDelta d s1.1 qp2)
      (qpAdd d (g * alpha) (toDelta d o0 qp1) (qpSc d (-g) s1.2.step)) := by
    simp only [s2, andersonUpdate, Bool.false_eq_true, if_false, hprev, g]
  refine ⟨?_, ?_, ?_⟩
  · intro i hi j hj
    have e1 := h1.1 i hi j hj
    have e2 := h2.1 i hi j hj
    have e3 : s2.2.step.ux i j = (-g) * s1.2.step.ux i j + g * alpha * (toDelta d o0 qp1).ux i j +
        (alpha - g * alpha) * (toDelta d s1.1 qp2).ux i j := by
      rw [hstep]; simp [qpAdd, qpSc, vecad, vecsc, hi, hj]
    simp only [QpOut.asOut] at e1 e2
    show s2.1.ux i j = _
    have e4 : alpha * s1.2.step.ux i j = s1.1.ux i j - o0.ux i j := by rw [e1]; ring
    rw [e2, e3]
    simp only [delta, QpOut.asOut]
    linear_combination (-g) * e4
  · intro i hi j hj
    have e1 := h1.2.1 i hi j hj
    have e2 := h2.2.1 i hi j hj
    have e3 : s2.2.step.lam i j = (-g) * s1.2.step.lam i j + g * alpha * (toDelta d o0 qp1).lam i j +
        (alpha - g * alpha) * (toDelta d s1.1 qp2).lam i j := by
      rw [hstep]; simp [qpAdd, qpSc, vecad, vecsc, hi, hj]
    simp only [QpOut.asOut] at e1 e2
    show s2.1.lam i j = _
    have e4 : alpha * s1.2.step.lam i j = s1.1.lam i j - o0.lam i j := by rw [e1]; ring
    rw [e2, e3]
    simp only [delta, QpOut.asOut]
    linear_combination (-g) * e4
  · intro i hi j hj
    have e1 := h1.2.2 i hi j hj
    have e2 := h2.2.2 i hi j hj
    have e3 : s2.2.step.pi i j = (-g) * s1.2.step.pi i j + g * alpha * (toDelta d o0 qp1).pi i j +
        (alpha - g * alpha) * (toDelta d s1.1 qp2).pi i j := by
      rw [hstep]; simp [qpAdd, qpSc, vecad, vecsc, hi, hj]
    simp only [QpOut.asOut] at e1 e2
    show s2.1.pi i j = _
    have e4 : alpha * s1.2.step.pi i j = s1.1.pi i j - o0.pi i j := by rw [e1]; ring
    rw [e2, e3]
    simp only [delta, QpOut.asOut]
    linear_combination (-g) * e4

/-- **C28** (documented combination; full steps only).  For step length one the accelerated iterate
is `w_k + d_k - γ ((w_k - w_{k-1}) + (d_k - d_{k-1}))`.  Missing for the full property: other step
lengths, for which the property is false (`C28_damped_wrong`). -/
theorem C28_documented_partial (d : Dims) (mem1 mem2 : Alg K) (r : Bool) (qp1 qp2 : QpOut K)
    (o0 : Out K) (a0 : Anderson K) :
    let s1 := andersonUpdate d mem1 1 r qp1 o0 a0
    let s2 := andersonUpdate d mem2 1 false qp2 s1.1 s1.2
    let g := andersonGamma d (toDelta d s1.1 qp2)
      (qpAxpy d (-1) (toDelta d o0 qp1) (toDelta d s1.1 qp2) (toDelta d s1.1 qp2))
    Entries d (fun get => get s2.1 = get s1.1 + get (delta d s1.1 qp2) -
      g * ((get s1.1 - get o0) + (get (delta d s1.1 qp2) - get (delta d o0 qp1)))) := by
  intro s1 s2 g
  obtain ⟨h1, h2, h3⟩ := C28_exact_update d mem1 mem2 1 r qp1 qp2 o0 a0
  refine ⟨fun i hi j hj => ?_, fun i hi j hj => ?_, fun i hi j hj => ?_⟩
  · have := h1 i hi j hj
    simp only at this ⊢
    linear_combination this
  · have := h2 i hi j hj
    simp only at this ⊢
    linear_combination this
  · have := h3 i hi j hj
    simp only at this ⊢
    linear_combination this

/-! ### γ is the least-squares weight -/

/-- the (semi-)norm the weight is computed in -/
theorem qpDot_self_nonneg (d : Dims) (x : QpOut K) : 0 ≤ qpDot d x x := by
  unfold qpDot dot
  refine sum_nonneg fun i _ => ?_
  have hs : ∀ (n : Nat) (f : Nat → K), 0 ≤ ∑ j ∈ range n, f j * f j :=
    fun n f => sum_nonneg fun j _ => mul_self_nonneg _
  have h4 : 0 ≤ (if i < d.N then ∑ j ∈ range (d.nx (i + 1)), x.pi i j * x.pi i j else 0) := by
    split
    · exact hs _ _
    · exact le_rfl
  have h1 := hs (d.nv i) (x.ux i)
  have h2 := hs (d.ni i - d.ns i) (fun j => x.lam i j - x.lam i (d.ni i - d.ns i + j))
  have h3 := hs (2 * d.ns i) (fun j => x.lam i (2 * (d.ni i - d.ns i) + j))
  linarith

/-- the combination `x - g y` of two steps -/
def combine (g : K) (x y : QpOut K) : QpOut K where
  ux := fun i j => x.ux i j - g * y.ux i j
  pi := fun i j => x.pi i j - g * y.pi i j
  lam := fun i j => x.lam i j - g * y.lam i j
  t := fun i j => x.t i j - g * y.t i j

theorem qpDot_combine (d : Dims) (g : K) (x y : QpOut K) :
    qpDot d (combine g x y) (combine g x y)
      = qpDot d x x - 2 * g * qpDot d x y + g ^ 2 * qpDot d y y := by
  unfold qpDot
  rw [mul_sum, mul_sum, ← sum_sub_distrib, ← sum_add_distrib]
  refine sum_congr rfl fun i _ => ?_
  have hd : ∀ (n : Nat) (a b : Nat → K),
      dot n (fun j => a j - g * b j) (fun j => a j - g * b j)
        = dot n a a - 2 * g * dot n a b + g ^ 2 * dot n b b := by
    intro n a b
    unfold dot
    rw [mul_sum, mul_sum, ← sum_sub_distrib, ← sum_add_distrib]
    exact sum_congr rfl fun j _ => by ring
  have e1 := hd (d.nv i) (x.ux i) (y.ux i)
  have e2 := hd (d.ni i - d.ns i) (fun j => x.lam i j - x.lam i (d.ni i - d.ns i + j))
    (fun j => y.lam i j - y.lam i (d.ni i - d.ns i + j))
  have e3 := hd (2 * d.ns i) (fun j => x.lam i (2 * (d.ni i - d.ns i) + j))
    (fun j => y.lam i (2 * (d.ni i - d.ns i) + j))
  have e4 := hd (d.nx (i + 1)) (x.pi i) (y.pi i)
  have e2' : dot (d.ni i - d.ns i)
      (fun j => (combine g x y).lam i j - (combine g x y).lam i (d.ni i - d.ns i + j))
      (fun j => (combine g x y).lam i j - (combine g x y).lam i (d.ni i - d.ns i + j))
      = dot (d.ni i - d.ns i)
        (fun j => (x.lam i j - x.lam i (d.ni i - d.ns i + j)) -
          g * (y.lam i j - y.lam i (d.ni i - d.ns i + j)))
        (fun j => (x.lam i j - x.lam i (d.ni i - d.ns i + j)) -
          g * (y.lam i j - y.lam i (d.ni i - d.ns i + j))) := by
    unfold dot combine
    exact sum_congr rfl fun j _ => by ring
  rw [e2', e2]
  simp only [combine] at *
  rw [e1, e3]
  split
  · rw [e4]; ring
  · ring

/-- **C28** (weight): when the two last steps differ (in the norm used), the weight the code
computes minimises the norm of the combined step over all weights. -/
theorem C28_gamma_optimal (d : Dims) (x y : QpOut K) (hy : qpDot d y y ≠ 0) (g : K) :
    qpDot d (combine (andersonGamma d x y) x y) (combine (andersonGamma d x y) x y)
      ≤ qpDot d (combine g x y) (combine g x y) := by
  rw [qpDot_combine, qpDot_combine]
  unfold andersonGamma
  have h := qpDot_self_nonneg d y
  have hp : 0 < qpDot d y y := lt_of_le_of_ne h (Ne.symm hy)
  have : qpDot d x x - 2 * g * qpDot d x y + g ^ 2 * qpDot d y y -
      (qpDot d x x - 2 * (qpDot d x y / qpDot d y y) * qpDot d x y +
        (qpDot d x y / qpDot d y y) ^ 2 * qpDot d y y)
      = qpDot d y y * (g - qpDot d x y / qpDot d y y) ^ 2 := by
    field_simp; ring
  have h2 : 0 ≤ qpDot d y y * (g - qpDot d x y / qpDot d y y) ^ 2 := by positivity
  linarith

/-- two equal steps: numerator and denominator of the weight both vanish … -/
theorem gamma_zero_zero (d : Dims) (hd : ∀ i, d.ns i ≤ d.ni i) (x q : QpOut K) :
    qpDot d q (qpAxpy d (-1) q q x) = 0 ∧
      qpDot d (qpAxpy d (-1) q q x) (qpAxpy d (-1) q q x) = 0 := by
  have hz : ∀ (y : QpOut K), qpDot d y (qpAxpy d (-1) q q x) = 0 := by
    intro y
    unfold qpDot
    refine sum_eq_zero fun i hi => ?_
    have hi' : i ≤ d.N := by have := mem_range.1 hi; omega
    have e1 : dot (d.nv i) (y.ux i) ((qpAxpy d (-1) q q x).ux i) = 0 :=
      sum_eq_zero fun j hj => by simp [qpAxpy, axpy, hi', mem_range.1 hj]
    have e2 : dot (d.ni i - d.ns i) (fun j => y.lam i j - y.lam i (d.ni i - d.ns i + j))
        (fun j => (qpAxpy d (-1) q q x).lam i j -
          (qpAxpy d (-1) q q x).lam i (d.ni i - d.ns i + j)) = 0 := by
      refine sum_eq_zero fun j hj => ?_
      have hj' := mem_range.1 hj
      have a1 : j < 2 * d.ni i := by omega
      have a2 : d.ni i - d.ns i + j < 2 * d.ni i := by omega
      simp [qpAxpy, axpy, hi', a1, a2]
    have e4 : (if i < d.N then dot (d.nx (i + 1)) (y.pi i) ((qpAxpy d (-1) q q x).pi i) else 0)
        = 0 := by
      split
      · next h => exact sum_eq_zero fun j hj => by simp [qpAxpy, axpy, h, mem_range.1 hj]
      · rfl
    have e3 : dot (2 * d.ns i) (fun j => y.lam i (2 * (d.ni i - d.ns i) + j))
        (fun j => (qpAxpy d (-1) q q x).lam i (2 * (d.ni i - d.ns i) + j)) = 0 := by
      have hle := hd i
      refine sum_eq_zero fun j hj => ?_
      have hj' := mem_range.1 hj
      have a1 : 2 * (d.ni i - d.ns i) + j < 2 * d.ni i := by omega
      simp [qpAxpy, axpy, hi', a1]
    rw [e1, e2, e3, e4]; ring
  exact ⟨hz q, hz _⟩

/-- **C28** (equal steps): … so that in floating point the weight is NaN (and with it the whole
next iterate) whenever two consecutive QP steps coincide. -/
theorem C28_equal_steps_nan (d : Dims) (hd : ∀ i, d.ns i ≤ d.ni i) (x q : QpOut ℚ) :
    gammaOf (.fin (qpDot d q (qpAxpy d (-1) q q x)))
      (.fin (qpDot d (qpAxpy d (-1) q q x) (qpAxpy d (-1) q q x))) = .nan := by
  obtain ⟨h1, h2⟩ := gamma_zero_zero d hd x q
  rw [h1, h2]
  rfl

/-- **C28** is false for damped steps: with step length `1/2` and weight `γ = 0` the applied update
is a quarter, not half, of the QP step. -/
theorem C28_damped_wrong :
    ∃ (d : Dims) (mem : Alg ℚ) (qp1 qp2 : QpOut ℚ) (o0 : Out ℚ) (a0 : Anderson ℚ),
      let s1 := andersonUpdate d mem (1/2) true qp1 o0 a0
      let s2 := andersonUpdate d mem (1/2) false qp2 s1.1 s1.2
      let q := toDelta d s1.1 qp2
      let diff := qpAxpy d (-1) s1.2.prev q q
      qpDot d diff diff ≠ 0 ∧ andersonGamma d q diff = 0 ∧
      (updateVars d mem s1.1 qp2 (1/2) false s1.1).ux 0 0 - s1.1.ux 0 0 = 1/2 ∧
      s2.1.ux 0 0 - s1.1.ux 0 0 = 1/4 :=
  ⟨⟨0, fun _ => 2, fun _ => 0, fun _ => 0, fun _ => 0, fun _ => 0⟩,
    ⟨fun _ _ _ => 0, fun _ _ => 0⟩,
    ⟨fun _ j => if j = 0 then 2 else 0, fun _ _ => 0, fun _ _ => 0, fun _ _ => 0⟩,
    ⟨fun _ _ => 1, fun _ _ => 0, fun _ _ => 0, fun _ _ => 0⟩,
    ⟨fun _ _ => 0, fun _ _ => 0, fun _ _ => 0, fun _ _ => 0⟩,
    ⟨⟨fun _ _ => 0, fun _ _ => 0, fun _ _ => 0, fun _ _ => 0⟩,
      ⟨fun _ _ => 0, fun _ _ => 0, fun _ _ => 0, fun _ _ => 0⟩⟩,
    by decide +kernel, by decide +kernel, by decide +kernel, by decide +kernel⟩

end

/-! ## C54: loops under `#pragma omp parallel for` -/

section
variable {S : Type*}

theorem exec_append (a b : List (S → S)) (s : S) : exec (a ++ b) s = exec b (exec a s) := by
  simp [exec]

theorem exec_inv (I : S → Prop) (l : List (S → S)) (h : ∀ f ∈ l, ∀ s, I s → I (f s)) (s : S)
    (hs : I s) : I (exec l s) := by
  induction l generalizing s with
  | nil => exact hs
  | cons f t ih =>
    exact ih (fun g hg => h g (List.mem_cons_of_mem _ hg)) (f s) (h f (by simp) s hs)

theorem exec_comm (I : S → Prop) (a : S → S) (l : List (S → S))
    (h : ∀ f ∈ l, ∀ s, I s → I (f s)) (hc : ∀ f ∈ l, ∀ s, I s → f (a s) = a (f s)) (s : S)
    (hs : I s) : exec l (a s) = a (exec l s) := by
  induction l generalizing s with
  | nil => rfl
  | cons f t ih =>
    show exec t (f (a s)) = a (exec t (f s))
    rw [hc f (by simp) s hs]
    exact ih (fun g hg => h g (List.mem_cons_of_mem _ hg))
      (fun g hg => hc g (List.mem_cons_of_mem _ hg)) (f s) (h f (by simp) s hs)

theorem seqSched_succ {α : Type*} (ts : Nat → List α) (n : Nat) :
    seqSched ts (n + 1) = seqSched ts n ++ ts n := by
  simp [seqSched, List.range_succ, List.flatMap_append]

theorem seqSched_congr {α : Type*} (ts ts' : Nat → List α) (n : Nat)
    (h : ∀ i < n, ts i = ts' i) : seqSched ts n = seqSched ts' n := by
  induction n with
  | zero => rfl
  | succ n ih =>
    rw [seqSched_succ, seqSched_succ, ih (fun i hi => h i (by omega)), h n (by omega)]

theorem mem_seqSched {α : Type*} (ts : Nat → List α) (n : Nat) (f : α) (h : f ∈ seqSched ts n) :
    ∃ i < n, f ∈ ts i := by
  simp only [seqSched, List.mem_flatMap, List.mem_range] at h
  exact h

/-- moving the first action of one iteration to the front of the sequential execution -/
theorem seq_step (I : S → Prop) (ts : Nat → List (S → S)) (i : Nat) (a : S → S)
    (rest : List (S → S)) (hti : ts i = a :: rest)
    (hI : ∀ j, ∀ f ∈ ts j, ∀ s, I s → I (f s))
    (hc : ∀ j k, j ≠ k → ∀ f ∈ ts j, ∀ g ∈ ts k, ∀ s, I s → f (g s) = g (f s))
    (n : Nat) (hn : i < n) (s : S) (hs : I s) :
    exec (seqSched ts n) s
      = exec (seqSched (fun j => if j = i then rest else ts j) n) (a s) := by
  induction n with
  | zero => omega
  | succ n ih =>
    rw [seqSched_succ, seqSched_succ, exec_append, exec_append]
    rcases Nat.lt_or_ge i n with h | h
    · rw [ih h, if_neg (by omega)]
    · have : i = n := by omega
      subst this
      rw [if_pos rfl, seqSched_congr (fun j => if j = i then rest else ts j) ts i
        (fun j hj => if_neg (by omega)), hti]
      show exec rest (a (exec (seqSched ts i) s)) = _
      rw [exec_comm I a (seqSched ts i) _ _ s hs]
      · intro f hf
        obtain ⟨j, _, hj⟩ := mem_seqSched ts i f hf
        exact hI j f hj
      · intro f hf s' hs'
        obtain ⟨j, hj, hfj⟩ := mem_seqSched ts i f hf
        exact hc j i (by omega) f hfj a (by rw [hti]; simp) s' hs'

/-- **C54** (general principle): if actions of different iterations commute (on the states that can
occur), every interleaving of the loop gives the result of the sequential loop. -/
theorem interleaving_eq_sequential (I : S → Prop) (ts : Nat → List (S → S)) (n : Nat)
    (hn : ∀ i, n ≤ i → ts i = [])
    (hI : ∀ j, ∀ f ∈ ts j, ∀ s, I s → I (f s))
    (hc : ∀ j k, j ≠ k → ∀ f ∈ ts j, ∀ g ∈ ts k, ∀ s, I s → f (g s) = g (f s))
    (sched : List (S → S)) (h : Interleaves ts sched) (s : S) (hs : I s) :
    exec sched s = exec (seqSched ts n) s := by
  induction h generalizing s with
  | done ts h =>
    have : seqSched ts n = [] := by
      simp [seqSched, h]
    rw [this]
  | step ts i a rest sched hti hr ih =>
    have hin : i < n := by
      by_contra hcon
      have := hn i (by omega)
      rw [hti] at this
      exact absurd this (by simp)
    rw [seq_step I ts i a rest hti hI hc n hin s hs]
    have hsub : ∀ j, ∀ f ∈ (fun j => if j = i then rest else ts j) j, f ∈ ts j := by
      intro j f hf
      simp only at hf
      split at hf
      · next hj => subst hj; rw [hti]; exact List.mem_cons_of_mem _ hf
      · exact hf
    refine ih ?_ ?_ ?_ (a s) (hI i a (by rw [hti]; simp) s hs)
    · intro j hj
      simp only
      rw [if_neg (by omega)]
      exact hn j hj
    · exact fun j f hf => hI j f (hsub j f hf)
    · exact fun j k hjk f hf g hg => hc j k hjk f (hsub j f hf) g (hsub k g hg)

end

section
variable {K : Type*} [CommRing K]

/-- an action that reads and writes only the slices of stage `i` -/
def Local (i : Nat) (f : Out K → Out K) : Prop :=
  ∃ gu gz gp gl : (Nat → K) → (Nat → K), ∀ o, f o =
    { ux := Function.update o.ux i (gu (o.ux i)), z := Function.update o.z i (gz (o.z i)),
      pi := Function.update o.pi i (gp (o.pi i)), lam := Function.update o.lam i (gl (o.lam i)) }

theorem local_comm (i j : Nat) (hij : i ≠ j) (f g : Out K → Out K) (hf : Local i f)
    (hg : Local j g) (o : Out K) : f (g o) = g (f o) := by
  obtain ⟨a1, a2, a3, a4, ha⟩ := hf
  obtain ⟨b1, b2, b3, b4, hb⟩ := hg
  rw [ha, hb, hb, ha]
  simp only [Function.update_of_ne hij, Function.update_of_ne (Ne.symm hij)]
  rw [Function.update_comm hij, Function.update_comm hij, Function.update_comm hij,
    Function.update_comm hij]

theorem updateActions_local (d : Dims) (mem : Alg K) (qp : QpOut K) (alpha : K) (full : Bool)
    (i : Nat) (f : Out K → Out K) (hf : f ∈ updateActions d mem qp alpha full i) : Local i f := by
  unfold updateActions at hf
  split at hf
  · simp only [List.mem_append, List.mem_map, List.mem_range] at hf
    rcases hf with (⟨j, _, rfl⟩ | ⟨j, _, rfl⟩) | hf
    · exact ⟨fun v => Function.update v j (alpha * qp.ux i j + v j), id, id, id,
        fun o => by simp⟩
    · exact ⟨id, id, id, fun v => Function.update v j
        (if full then qp.lam i j else (1 - alpha) * v j + alpha * qp.lam i j), fun o => by simp⟩
    · split at hf
      · simp only [List.mem_append, List.mem_map, List.mem_range] at hf
        rcases hf with ⟨j, _, rfl⟩ | ⟨j, _, rfl⟩
        · exact ⟨id, id, fun v => Function.update v j
            (if full then qp.pi i j else (1 - alpha) * v j + alpha * qp.pi i j), id,
            fun o => by simp⟩
        · exact ⟨id, fun v => Function.update v j (1 * mem.zAlg i j +
            alpha * ∑ r ∈ range (d.nu i + d.nx i), mem.dzduxt i r j * qp.ux i r), id, id,
            fun o => by simp⟩
      · simp at hf
  · simp at hf

/-- element loop over one slice -/
theorem exec_elements {S : Type*} (get : S → Nat → K) (put : S → (Nat → K) → S)
    (h1 : ∀ s v, get (put s v) = v) (h2 : ∀ s v w, put (put s v) w = put s w)
    (h3 : ∀ s, put s (get s) = s) (f : Nat → K → K) (n : Nat) (s : S) :
    exec ((List.range n).map (fun j s => put s (Function.update (get s) j (f j (get s j))))) s
      = put s (fun j => if j < n then f j (get s j) else get s j) := by
  induction n with
  | zero => simp [exec, h3]
  | succ n ih =>
    rw [List.range_succ, List.map_append, exec_append, ih]
    simp only [List.map_cons, List.map_nil, exec, List.foldl_cons, List.foldl_nil, h1, h2]
    congr 1
    funext j
    rcases Nat.lt_trichotomy j n with h | h | h
    · rw [Function.update_of_ne (by omega), if_pos h, if_pos (by omega)]
    · subst h; simp
    · rw [Function.update_of_ne (by omega), if_neg (by omega), if_neg (by omega)]

/-- one stage of the sequential loop -/
theorem exec_stage (d : Dims) (mem : Alg K) (qp : QpOut K) (alpha : K) (full : Bool) (i : Nat)
    (hi : i ≤ d.N) (o : Out K) :
    let o' := exec (updateActions d mem qp alpha full i) o
    let r := updateVars d mem o qp alpha full o
    o'.ux = Function.update o.ux i (r.ux i) ∧ o'.lam = Function.update o.lam i (r.lam i) ∧
    o'.pi = Function.update o.pi i (r.pi i) ∧ o'.z = Function.update o.z i (r.z i) := by
  have eu := exec_elements (K := K) (S := Out K) (fun o => o.ux i)
    (fun o v => { o with ux := Function.update o.ux i v }) (by simp) (by simp) (by simp)
    (fun j v => alpha * qp.ux i j + v) (d.nv i)
  have el := exec_elements (K := K) (S := Out K) (fun o => o.lam i)
    (fun o v => { o with lam := Function.update o.lam i v }) (by simp) (by simp) (by simp)
    (fun j v => if full then qp.lam i j else (1 - alpha) * v + alpha * qp.lam i j) (2 * d.ni i)
  have ep := exec_elements (K := K) (S := Out K) (fun o => o.pi i)
    (fun o v => { o with pi := Function.update o.pi i v }) (by simp) (by simp) (by simp)
    (fun j v => if full then qp.pi i j else (1 - alpha) * v + alpha * qp.pi i j) (d.nx (i + 1))
  have ez := exec_elements (K := K) (S := Out K) (fun o => o.z i)
    (fun o v => { o with z := Function.update o.z i v }) (by simp) (by simp) (by simp)
    (fun j _ => 1 * mem.zAlg i j +
      alpha * ∑ r ∈ range (d.nu i + d.nx i), mem.dzduxt i r j * qp.ux i r) (d.nz i)
  have hl : (fun j => if j < 2 * d.ni i then
      (if full = true then qp.lam i j else (1 - alpha) * o.lam i j + alpha * qp.lam i j)
      else o.lam i j) = (updateVars d mem o qp alpha full o).lam i := by
    funext j; cases full <;> simp [updateVars, hi, axpby, veccp]
  have hu : (fun j => if j < d.nv i then alpha * qp.ux i j + o.ux i j else o.ux i j)
      = (updateVars d mem o qp alpha full o).ux i := by
    funext j; simp [updateVars, hi, axpy]
  unfold updateActions
  rw [if_pos hi]
  by_cases hN : i < d.N
  · have hp : (fun j => if j < d.nx (i + 1) then
        (if full = true then qp.pi i j else (1 - alpha) * o.pi i j + alpha * qp.pi i j)
        else o.pi i j) = (updateVars d mem o qp alpha full o).pi i := by
      funext j; cases full <;> simp [updateVars, hN, axpby, veccp]
    have hz : (fun j => if j < d.nz i then 1 * mem.zAlg i j +
        alpha * ∑ r ∈ range (d.nu i + d.nx i), mem.dzduxt i r j * qp.ux i r else o.z i j)
        = (updateVars d mem o qp alpha full o).z i := by
      funext j; simp [updateVars, hN, gemvT]
    simp only [if_pos hN, exec_append, eu, el, ep, ez, hl, hu, hp, hz, and_self]
  · have hp : Function.update o.pi i ((updateVars d mem o qp alpha full o).pi i) = o.pi := by
      simp [updateVars, hN]
    have hz : Function.update o.z i ((updateVars d mem o qp alpha full o).z i) = o.z := by
      simp [updateVars, hN]
    simp only [if_neg hN, List.append_nil, exec_append, eu, el, hl, hu, hp, hz, and_self]

theorem exec_seq (d : Dims) (mem : Alg K) (qp : QpOut K) (alpha : K) (full : Bool) (o : Out K)
    (n : Nat) (hn : n ≤ d.N + 1) :
    let o' := exec (seqSched (updateActions d mem qp alpha full) n) o
    let r := updateVars d mem o qp alpha full o
    ∀ k, o'.ux k = (if k < n then r.ux k else o.ux k) ∧
      o'.lam k = (if k < n then r.lam k else o.lam k) ∧
      o'.pi k = (if k < n then r.pi k else o.pi k) ∧
      o'.z k = (if k < n then r.z k else o.z k) := by
  induction n with
  | zero => intro o' r k; simp [o', exec, seqSched]
  | succ n ih =>
    intro o' r k
    have ih' := ih (by omega)
    simp only at ih'
    obtain ⟨s1, s2, s3, s4⟩ := exec_stage d mem qp alpha full n (by omega)
      (exec (seqSched (updateActions d mem qp alpha full) n) o)
    simp only [o', seqSched_succ, exec_append]
    rw [s1, s2, s3, s4]
    by_cases hk : k = n
    · subst hk
      simp only [Function.update_self, Nat.lt_succ_self, if_true]
      obtain ⟨a1, a2, a3, a4⟩ := ih' k
      simp only [lt_irrefl, if_false] at a1 a2 a3 a4
      simp only [updateVars, a1, a2, a3, a4, r, and_self]
    · simp only [Function.update_of_ne hk]
      obtain ⟨a1, a2, a3, a4⟩ := ih' k
      rw [a1, a2, a3, a4]
      have : (k < n + 1) = (k < n) := by
        apply propext; omega
      simp only [this, r, and_self]

/-- **C54** (step update): the parallel loop that applies the step gives, under every schedule and
every number of threads, exactly the iterate of C27. -/
theorem C54_update_schedule_independent (d : Dims) (mem : Alg K) (qp : QpOut K) (alpha : K)
    (full : Bool) (o : Out K) (sched : List (Out K → Out K))
    (h : Interleaves (updateActions d mem qp alpha full) sched) :
    exec sched o = updateVars d mem o qp alpha full o := by
  rw [interleaving_eq_sequential (fun _ => True) (updateActions d mem qp alpha full) (d.N + 1)
    (fun i hi => by unfold updateActions; rw [if_neg (by omega)])
    (fun _ _ _ _ _ => trivial)
    (fun j k hjk f hf g hg s _ => local_comm j k hjk f g
      (updateActions_local d mem qp alpha full j f hf)
      (updateActions_local d mem qp alpha full k g hg) s) sched h o trivial]
  have hs := exec_seq d mem qp alpha full o (d.N + 1) le_rfl
  simp only at hs
  have hx : ∀ k, ¬ k < d.N + 1 → (updateVars d mem o qp alpha full o).ux k = o.ux k ∧
      (updateVars d mem o qp alpha full o).lam k = o.lam k ∧
      (updateVars d mem o qp alpha full o).pi k = o.pi k ∧
      (updateVars d mem o qp alpha full o).z k = o.z k := by
    intro k hk
    have a : ¬ k ≤ d.N := by omega
    have b : ¬ k < d.N := by omega
    simp [updateVars, a, b]
  have key : ∀ k, (exec (seqSched (updateActions d mem qp alpha full) (d.N + 1)) o).ux k
      = (updateVars d mem o qp alpha full o).ux k ∧
      (exec (seqSched (updateActions d mem qp alpha full) (d.N + 1)) o).lam k
      = (updateVars d mem o qp alpha full o).lam k ∧
      (exec (seqSched (updateActions d mem qp alpha full) (d.N + 1)) o).pi k
      = (updateVars d mem o qp alpha full o).pi k ∧
      (exec (seqSched (updateActions d mem qp alpha full) (d.N + 1)) o).z k
      = (updateVars d mem o qp alpha full o).z k := by
    intro k
    obtain ⟨a1, a2, a3, a4⟩ := hs k
    by_cases hk : k < d.N + 1
    · simp only [hk, if_true] at a1 a2 a3 a4
      exact ⟨a1, a2, a3, a4⟩
    · obtain ⟨b1, b2, b3, b4⟩ := hx k hk
      simp only [hk, if_false] at a1 a2 a3 a4
      rw [a1, a2, a3, a4, b1, b2, b3, b4]
      exact ⟨rfl, rfl, rfl, rfl⟩
  ext k j
  · rw [(key k).1]
  · rw [(key k).2.2.2]
  · rw [(key k).2.2.1]
  · rw [(key k).2.1]

/-- **C54** (step arithmetic of the acceleration; partial).  If all stages have the same number of
inequalities, the parallel loop of `ocp_qp_out_add` gives the sequential result under every
schedule.  Missing: stages with different numbers of inequalities, for which it is false
(`C54_shared_length_race`). -/
theorem C54_add_partial (d : Dims) (c : Nat) (hc : ∀ i ≤ d.N, d.ni i = c) (a : K) (x : QpOut K)
    (s : AddState K) (sched : List (AddState K → AddState K))
    (h : Interleaves (addActions d a x) sched) :
    exec sched s = exec (seqSched (addActions d a x) (d.N + 1)) s := by
  have main : ∀ (sched : List (AddState K → AddState K)), Interleaves (addActions d a x) sched →
      ∀ s : AddState K, s.niStage = c →
      exec sched s = exec (seqSched (addActions d a x) (d.N + 1)) s := by
    intro sched h s hs
    refine interleaving_eq_sequential (fun s => s.niStage = c) (addActions d a x) (d.N + 1)
      (fun i hi => by unfold addActions; rw [if_neg (by omega)]) ?_ ?_ sched h s hs
    · intro j f hf s hs
      unfold addActions at hf
      split at hf
      · next hj =>
        simp only [List.mem_cons, List.not_mem_nil, or_false] at hf
        rcases hf with rfl | rfl | rfl | rfl | rfl
        · exact hc j hj
        · exact hs
        · exact hs
        · simp only; split <;> exact hs
        · exact hs
      · simp at hf
    · intro j k hjk f hf g hg s hs
      unfold addActions at hf hg
      split at hf
      · next hj =>
        split at hg
        · next hk =>
          have ej := hc j hj
          have ek := hc k hk
          simp only [List.mem_cons, List.not_mem_nil, or_false] at hf hg
          obtain ⟨n, ⟨yu, yp, yl, yt⟩⟩ := s
          simp only at hs
          subst hs
          rcases hf with rfl | rfl | rfl | rfl | rfl <;> rcases hg with rfl | rfl | rfl | rfl | rfl <;>
            simp only [ej, ek, Function.update_of_ne hjk, Function.update_of_ne (Ne.symm hjk)] <;>
            (try split_ifs) <;>
            simp only [ej, ek, Function.update_of_ne hjk, Function.update_of_ne (Ne.symm hjk),
              Function.update_comm hjk]
        · simp at hg
      · simp at hf
  -- the first action of every schedule stores the common value
  have first : ∀ (sched : List (AddState K → AddState K)) (b : AddState K → AddState K)
      (rest : List (AddState K → AddState K)), sched = b :: rest →
      (∃ i ≤ d.N, b = fun s => { s with niStage := d.ni i }) →
      ∀ s : AddState K, exec sched s = exec sched { s with niStage := c } := by
    rintro _ b rest rfl ⟨i, hi, rfl⟩ s
    simp only [exec, List.foldl_cons, hc i hi]
  cases h with
  | done _ h0 =>
    have h0' := h0 0
    unfold addActions at h0'
    rw [if_pos (Nat.zero_le _)] at h0'
    simp at h0'
  | step _ i b rest sched' hti hr =>
    have hi : i ≤ d.N := by
      by_contra hcon
      unfold addActions at hti
      rw [if_neg hcon] at hti
      simp at hti
    have hb : b = fun s => { s with niStage := d.ni i } := by
      unfold addActions at hti
      rw [if_pos hi] at hti
      exact (List.cons.inj hti).1.symm
    have hall : Interleaves (addActions d a x) (b :: sched') :=
      Interleaves.step _ i b rest sched' hti hr
    rw [first (b :: sched') b sched' rfl ⟨i, hi, hb⟩ s, main _ hall _ rfl]
    have hseq : ∃ rest', seqSched (addActions d a x) (d.N + 1)
        = (fun s => { s with niStage := d.ni 0 }) :: rest' := by
      have : List.range (d.N + 1) = 0 :: (List.range d.N).map Nat.succ := List.range_succ_eq_map
      unfold seqSched
      rw [this, List.flatMap_cons]
      unfold addActions
      rw [if_pos (Nat.zero_le _)]
      exact ⟨_, rfl⟩
    obtain ⟨rest', hr'⟩ := hseq
    exact (first _ _ rest' hr' ⟨0, Nat.zero_le _, rfl⟩ s).symm

end

/-- the racy schedule: stage 1 overwrites the shared length after stage 0 has stored its own -/
def raceDims : Dims := ⟨1, fun _ => 0, fun _ => 0, fun _ => 0, fun _ => 0,
  fun i => if i = 0 then 1 else 0⟩

/-- **C54** is false for `ocp_qp_out_add` when the stages have different numbers of inequalities:
the loop shares its length variable between the threads, and a schedule exists under which the
multiplier of stage 0 is not updated. -/
theorem C54_shared_length_race :
    ∃ (x : QpOut ℚ) (s : AddState ℚ) (sched : List (AddState ℚ → AddState ℚ)),
      Interleaves (addActions raceDims 1 x) sched ∧
      (exec sched s).y.lam 0 0 ≠
        (exec (seqSched (addActions raceDims 1 x) (raceDims.N + 1)) s).y.lam 0 0 := by
  refine ⟨⟨fun _ _ => 0, fun _ _ => 0, fun _ _ => 1, fun _ _ => 0⟩,
    ⟨0, ⟨fun _ _ => 0, fun _ _ => 0, fun _ _ => 0, fun _ _ => 0⟩⟩, _,
    Interleaves.step _ 0 _ _ _ rfl (Interleaves.step _ 1 _ _ _ rfl
      (Interleaves.step _ 0 _ _ _ rfl (Interleaves.step _ 0 _ _ _ rfl
      (Interleaves.step _ 0 _ _ _ rfl (Interleaves.step _ 0 _ _ _ rfl
      (Interleaves.step _ 1 _ _ _ rfl (Interleaves.step _ 1 _ _ _ rfl
      (Interleaves.step _ 1 _ _ _ rfl (Interleaves.step _ 1 _ _ _ rfl
      (Interleaves.done _ ?_)))))))))), ?_⟩
  · intro i
    rcases i with _ | _ | i
    · rfl
    · rfl
    · simp [addActions, raceDims]
  · decide +kernel

end Acados.Step
