import Verif.Lemmas.Gnsf
import Mathlib.LinearAlgebra.Matrix.Notation
import Mathlib.Algebra.Order.Field.Rat
/-!
# C63: the GNSF integrator performs the implicit Runge-Kutta step of the user's model
-/
namespace Acados.Gnsf
open Matrix
set_option linter.unusedSectionVars false
variable {K : Type*} [Field K] [LinearOrder K]
variable {d : Dims} {m : Mdl K} {o : Opts K} {dt : K} {f : Facts d K} {e : Ext d K}

/-- what the workspace holds outside the blocks written by precompute does not disturb it -/
def Clean (w : Stale d K) : Prop := ∀ a b, a.1 ≠ b.1 → w.llz a b = 0

theorem x1stage_eq (x1 : Fin d.nx1 → K) (k : K1 d → K) (j : Fin d.s) :
    blk (x1stage d o dt x1 k) j = stageOf o dt x1 (blk k) j := by
  ext r
  simp only [blk, x1stage, stageOf, stages_add, Finset.mul_sum, Adt]
  congr 1
  exact Finset.sum_congr rfl fun i _ => by ring

theorem stepX1_eq (x1 : Fin d.nx1 → K) (k : K1 d → K) : stepX1 d o dt x1 k = nextOf o dt x1 (blk k) := by
  ext r
  simp only [stepX1, nextOf, stages_add, Finset.mul_sum, bdt]
  congr 1
  exact Finset.sum_congr rfl fun i _ => by ring

theorem stepX2_eq (x2 : Fin d.nx2 → K) (k : K2 d → K) :
    stepX2 d o dt x2 k = nextOf o dt x2 (fun i c => k (i, Sum.inl c)) := by
  ext r
  simp only [stepX2, nextOf, stages_add, Finset.mul_sum, bdt]
  congr 1
  exact Finset.sum_congr rfl fun i _ => by ring

/-- stage equations of the linear output system, from a solution of the system with matrix `M2` -/
theorem lin2_of_M2 (k2 : K2 d → K) (x2 : Fin d.nx2 → K) (u : Fin d.nu → K) (g : K2 d → K)
    (h : M2 d m o dt *ᵥ k2 = fun a => g a + (ALO d m *ᵥ x2 + (BLO d m *ᵥ u + fun r => m.c_LO (pos2 d r))) a.2)
    (j : Fin d.s) :
    Lin2 d m (stageOf o dt x2 (fun i c => k2 (i, Sum.inl c)) j) (blk k2 j) u (blk g j) := by
  unfold Lin2
  rw [user_ELO, user_LO, user_LO]
  ext r
  have h' := congrFun h (j, r)
  rw [M2_eq, kron_mulVec] at h'
  simp only [fromCols_mulVec, Pi.add_apply, neg_mul, Finset.sum_neg_distrib] at h'
  have e := mulVec_stageOf o dt (ALO d m) x2 (fun i c => k2 (i, Sum.inl c)) j r
  simp only [ALO, BLO, row2_pos2, Pi.add_apply] at h' e ⊢
  rw [e]
  simp only [blk] at h' ⊢
  linear_combination h'

theorem K2val_eq (hf : IsLu (M2 d m o dt) f.m2) (w : Stale d K) (x1 : Fin d.nx1 → K) (x2 : Fin d.nx2 → K)
    (u : Fin d.nu → K) (k : K1 d → K) (z : Z1 d → K) :
    M2 d m o dt *ᵥ K2val d m o dt (precompute d m o dt f w) e x1 x2 u k z
      = fun a => (if m.nontrivial_f_LO then
          e.flo (blk (x1stage d o dt x1 k) a.1) (blk k a.1) (blk z a.1) u else 0) a.2
        + (ALO d m *ᵥ x2 + (BLO d m *ᵥ u + fun r => m.c_LO (pos2 d r))) a.2 := by
  have h : ∀ rhs : K2 d → K, M2 d m o dt *ᵥ (fun a => - solveV f.m2 rhs a) = fun a => - rhs a := by
    intro rhs
    have := mulVec_solveV hf rhs
    change M2 d m o dt *ᵥ (- solveV f.m2 rhs) = - rhs
    rw [Matrix.mulVec_neg, this]
  simp only [K2val]
  change M2 d m o dt *ᵥ (fun a => - solveV f.m2 _ a) = _
  rw [h]
  ext a
  cases m.nontrivial_f_LO
  · simp
  · simp only [if_true]; ring

/-- **C63** the residual on which the Newton iteration works is the defect of the nonlinearity -/
theorem C63_residual (w : Stale d K) (hw : Clean w) (x1 : Fin d.nx1 → K) (u : Fin d.nu → K)
    (v : VV d → K) (j : Fin d.s) :
    blk (res d m (precompute d m o dt f w) e x1 u v) j
      = defect d m o dt e x1 u (blk (K1val d (precompute d m o dt f w) x1 u v))
          (blk (Z1val d (precompute d m o dt f w) x1 u v)) (blk v) j := by
  have hy := y_core (m := m) (o := o) (dt := dt) (f := f) w hw x1 u v j
  have : (user m.L_u d.nuh Fin.val Fin.val *ᵥ u) = uhat d m u := by rw [user_pack]; rfl
  unfold defect
  rw [this, ← hy]
  ext r
  simp only [res, blk, Pi.sub_apply]
  ring

/-- **C63** Every step of the GNSF integrator is an IRK step of the user's system: with the stage
derivatives and algebraic variables it computes, all linear equations hold exactly at every stage and the
next state is `x + dt ∑ b k`.  The only defect is the residual `v - φ(y, L_u u)` left by the Newton
iteration.  Missing for the full claim: the row permutation of the Schur complement must be trivial and
the workspace block `LLZ` clean (see `C63_permutation_false`, `C63_stale_false`). -/
theorem C63_step_partial (hf : Exact d m o dt f) (hp : f.qq1.perm = 1) (w : Stale d K)
    (g : Matrix (VV d) (VV d) K → Lu (VV d) K) (first : Bool) (lu : Lu (VV d) K) (v0 : VV d → K)
    (x1 : Fin d.nx1 → K) (x2 : Fin d.nx2 → K) (u : Fin d.nu → K) :
    let s := step d m o dt (precompute d m o dt f w) e g first lu v0 x1 x2 u
    IrkStep d m o dt e x1 x2 u (blk s.k1) (blk s.z1) (blk s.k2)
      (defect d m o dt e x1 u (blk s.k1) (blk s.z1) (blk s.v)) s.x1 s.x2 := by
  intro s
  refine ⟨fun j => ?_, fun j => ?_, ?_, ?_⟩
  · have h := lin_core hf hp w x1 u s.v j
    unfold defect
    rw [add_sub_cancel]
    exact h
  · have h := lin2_of_M2 _ x2 u _ (K2val_eq (e := e) hf.m2 w x1 x2 u s.k1 s.z1) j
    simp only [x1stage_eq] at h
    exact h
  · exact stepX1_eq x1 s.k1
  · exact stepX2_eq x2 s.k2

/-- **C63** for models without algebraic variables in the nonlinear part (`nz1 = 0`): no assumption on
pivoting or workspace content is needed -/
theorem C63_step_ode (hz : d.nz1 = 0) (hf : Exact d m o dt f) (w : Stale d K)
    (g : Matrix (VV d) (VV d) K → Lu (VV d) K) (first : Bool) (lu : Lu (VV d) K) (v0 : VV d → K)
    (x1 : Fin d.nx1 → K) (x2 : Fin d.nx2 → K) (u : Fin d.nu → K) :
    let s := step d m o dt (precompute d m o dt f w) e g first lu v0 x1 x2 u
    IrkStep d m o dt e x1 x2 u (blk s.k1) (blk s.z1) (blk s.k2)
      (blk (res d m (precompute d m o dt f w) e x1 u s.v)) s.x1 s.x2 := by
  intro s
  have he : IsEmpty (Z1 d) := ⟨fun a => by have := a.2.isLt; omega⟩
  have h := C63_step_partial (e := e) hf (Equiv.ext fun a => he.elim a) w g first lu v0 x1 x2 u
  have hr : blk (res d m (precompute d m o dt f w) e x1 u s.v)
      = defect d m o dt e x1 u (blk s.k1) (blk s.z1) (blk s.v) :=
    funext fun j => C63_residual w (fun _ b => he.elim b) x1 u s.v j
  rw [hr]
  exact h

/-- **C63** the whole simulation is a chain of such steps, for every number of steps -/
theorem C63_run_partial (hf : Exact d m o dt f) (hp : f.qq1.perm = 1) (w : Stale d K)
    (g : Matrix (VV d) (VV d) K → Lu (VV d) K) (sens : Bool) (u : Fin d.nu → K) (n : Nat) (first : Bool)
    (lu : Lu (VV d) K) (v0 : VV d → K) (x1 : Fin d.nx1 → K) (x2 : Fin d.nx2 → K) :
    let l := simulate d m o dt (precompute d m o dt f w) e g sens u n first lu v0 x1 x2
    l.length = n ∧ IrkRun d m o dt e u x1 x2 l := by
  induction n generalizing first lu v0 x1 x2 with
  | zero => exact ⟨rfl, .nil _ _⟩
  | succ n ih =>
    have hs := C63_step_partial (e := e) hf hp w g first lu v0 x1 x2 u
    have h := ih false
      (if sens then g (Jrvv d m (precompute d m o dt f w) e x1 u
        (step d m o dt (precompute d m o dt f w) e g first lu v0 x1 x2 u).v)
       else (step d m o dt (precompute d m o dt f w) e g first lu v0 x1 x2 u).lu)
      (step d m o dt (precompute d m o dt f w) e g first lu v0 x1 x2 u).v
      (step d m o dt (precompute d m o dt f w) e g first lu v0 x1 x2 u).x1
      (step d m o dt (precompute d m o dt f w) e g first lu v0 x1 x2 u).x2
    exact ⟨by simpa [simulate] using h.1, .cons _ _ _ _ hs h.2⟩

/-! ## Newton iteration -/

/-- **C63** a solution is kept: started at a zero of the residual the Newton iteration does not move -/
theorem C63_newton_fixed (p : Pre d K) (g : Matrix (VV d) (VV d) K → Lu (VV d) K) (x1 : Fin d.nx1 → K)
    (u : Fin d.nu → K) (n : Nat) (first : Bool) (lu : Lu (VV d) K) (v : VV d → K)
    (hv : res d m p e x1 u v = 0) : (newton d m o p e g x1 u n first lu v).1 = v := by
  induction n generalizing first lu with
  | zero => rfl
  | succ n ih =>
    have h0 : ∀ lu : Lu (VV d) K, solveV lu (res d m p e x1 u v) = 0 := by
      intro lu; rw [hv]; ext a; simp [solveV, Matrix.mulVec, dotProduct]
    simp only [newton]
    rw [h0, sub_zero]
    split
    · rfl
    · exact ih _ _

/-- **C63** without Jacobian reuse the iteration is Newton's method on the residual, with the stopping
rule of `newton_tol` -/
theorem C63_newton (p : Pre d K) (g : Matrix (VV d) (VV d) K → Lu (VV d) K) (x1 : Fin d.nx1 → K)
    (u : Fin d.nu → K) (hr : o.jac_reuse = false)
    (hg : ∀ v, IsLu (Jrvv d m p e x1 u v) (g (Jrvv d m p e x1 u v)))
    (n : Nat) (first : Bool) (lu : Lu (VV d) K) (v : VV d → K) :
    NewtonRun (res d m p e x1 u) (Jrvv d m p e x1 u) o.newton_tol n v
      (newton d m o p e g x1 u n first lu v).1 := by
  induction n generalizing first lu v with
  | zero => exact .out _
  | succ n ih =>
    simp only [newton, hr, Bool.false_and, Bool.not_false, Bool.false_or, if_true]
    split
    next h => exact .stop _ _ _ (mulVec_solveV (hg v) _) h.1 h.2
    next h =>
      refine .more _ _ _ _ (mulVec_solveV (hg v) _) ?_ (ih _ _ _)
      by_contra hc
      push Not at hc
      exact h hc

/-- **C63** with Jacobian reuse the first step of a call is the simplified Newton method with the Jacobian
at the initial guess -/
theorem C63_newton_reuse (p : Pre d K) (g : Matrix (VV d) (VV d) K → Lu (VV d) K) (x1 : Fin d.nx1 → K)
    (u : Fin d.nu → K) (hr : o.jac_reuse = true) (n : Nat) (lu : Lu (VV d) K) (v : VV d → K)
    (hg : IsLu (Jrvv d m p e x1 u v) (g (Jrvv d m p e x1 u v))) :
    NewtonRun (res d m p e x1 u) (fun _ => Jrvv d m p e x1 u v) o.newton_tol n v
      (newton d m o p e g x1 u n true lu v).1 := by
  have aux : ∀ n v', NewtonRun (res d m p e x1 u) (fun _ => Jrvv d m p e x1 u v) o.newton_tol n v'
      (newton d m o p e g x1 u n false (g (Jrvv d m p e x1 u v)) v').1 := by
    intro n
    induction n with
    | zero => intro v'; exact .out _
    | succ n ih =>
      intro v'
      simp only [newton, hr, Bool.and_false, Bool.not_true, Bool.or_false, Bool.false_eq_true, if_false]
      split
      next h => exact .stop _ _ _ (mulVec_solveV hg _) h.1 h.2
      next h =>
        refine .more _ _ _ _ (mulVec_solveV hg _) ?_ (ih _)
        by_contra hc
        push Not at hc
        exact h hc
  cases n with
  | zero => exact .out _
  | succ n =>
    simp only [newton, hr, Bool.and_true, Bool.true_or, if_true]
    split
    next h => exact .stop _ _ _ (mulVec_solveV hg _) h.1 h.2
    next h =>
      refine .more _ _ _ _ (mulVec_solveV hg _) ?_ (aux _ _)
      by_contra hc
      push Not at hc
      exact h hc

/-- the residual of an affine nonlinearity -/
theorem res_affine (p : Pre d K) (x1 : Fin d.nx1 → K) (u : Fin d.nu → K)
    (hφ : ∀ y y' q, e.phi y' q = e.phi y q + e.phi_y y q *ᵥ (y' - y)) (v δ : VV d → K) :
    res d m p e x1 u (v - δ) = res d m p e x1 u v - Jrvv d m p e x1 u v *ᵥ δ := by
  ext a
  have hy : blk (yy d p x1 u (v - δ)) a.1 = blk (yy d p x1 u v) a.1 - rowBlk a.1 p.YYv *ᵥ δ := by
    ext r
    simp only [blk, yy, Matrix.mulVec_sub, Pi.add_apply, Pi.sub_apply]
    have : (rowBlk a.1 p.YYv *ᵥ δ) r = (p.YYv *ᵥ δ) (a.1, r) := rfl
    rw [this]; ring
  have hJ : (Jrvv d m p e x1 u v *ᵥ δ) a = δ a
      - (e.phi_y (blk (yy d p x1 u v) a.1) (uhat d m u) *ᵥ (rowBlk a.1 p.YYv *ᵥ δ)) a.2 := by
    rw [Matrix.mulVec_mulVec]
    simp only [Matrix.mulVec, dotProduct, Jrvv, sub_mul, Finset.sum_sub_distrib]
    congr 1
    simp
  simp only [res, Pi.sub_apply]
  rw [hJ, hφ (blk (yy d p x1 u v) a.1) (blk (yy d p x1 u (v - δ)) a.1), hy]
  rw [sub_sub_cancel_left, Matrix.mulVec_neg]
  simp only [Pi.add_apply, Pi.neg_apply]
  ring

/-- **C63** for a nonlinearity that is affine in `y` the step is exact with any positive number of Newton
iterations, from every initial guess -/
theorem C63_newton_affine (p : Pre d K) (g : Matrix (VV d) (VV d) K → Lu (VV d) K) (x1 : Fin d.nx1 → K)
    (u : Fin d.nu → K) (hφ : ∀ y y' q, e.phi y' q = e.phi y q + e.phi_y y q *ᵥ (y' - y))
    (n : Nat) (hn : 0 < n) (first : Bool) (hr : o.jac_reuse = true → first = true) (lu : Lu (VV d) K)
    (v : VV d → K) (hg : IsLu (Jrvv d m p e x1 u v) (g (Jrvv d m p e x1 u v))) :
    res d m p e x1 u (newton d m o p e g x1 u n first lu v).1 = 0 := by
  obtain ⟨n, rfl⟩ : ∃ k, n = k + 1 := ⟨n - 1, by omega⟩
  have hlu : (o.jac_reuse && first || !o.jac_reuse) = true := by
    cases h : o.jac_reuse
    · simp
    · simp [hr h]
  have hz : res d m p e x1 u (v - solveV (g (Jrvv d m p e x1 u v)) (res d m p e x1 u v)) = 0 := by
    rw [res_affine p x1 u hφ, mulVec_solveV hg, sub_self]
  simp only [newton, hlu, if_true]
  split
  · exact hz
  · rw [C63_newton_fixed p g x1 u n _ _ _ hz]; exact hz

/-! ## Concrete cases -/

section examples
local instance {ι : Type} [Fintype ι] [DecidableEq ι] (M : Matrix ι ι ℚ) (lu : Lu ι ℚ) :
    Decidable (IsLu M lu) := by unfold IsLu; infer_instance

/-- factorisation of a matrix with two rows, without pivoting -/
def lu2 {ι : Type} [DecidableEq ι] (a b : ι) (M : Matrix ι ι ℚ) : Lu ι ℚ :=
  let det := M a a * M b b - M a b * M b a
  { perm := 1, L := 1, Linv := 1, U := M
    Uinv := fun i j => if i = a then (if j = a then M b b / det else - M a b / det)
      else (if j = a then - M b a / det else M a a / det) }

/-- two stages, one differential and one algebraic variable, one output state -/
abbrev dEx : Dims := ⟨2, 1, 1, 1, 1, 1, 1, 1, 0⟩
/-- `E = [2 1; 1 1]`, `A = [1; 3]`, `B = [1; 2]`, `C = [1; -1]`, `c = (1, 2)` -/
def mEx (nontrivial : Bool) : Mdl ℚ where
  A := fun i => if i = 0 then 1 else 3
  B := fun i => if i = 0 then 1 else 2
  C := fun i => if i = 0 then 1 else -1
  E := fun i => if i = 0 then 2 else 1
  c := fun i => if i = 0 then 1 else 2
  L_x := fun _ => 1
  L_xdot := fun _ => 2
  L_z := fun _ => 1
  L_u := fun _ => 3
  A_LO := fun _ => 1
  B_LO := fun _ => 2
  E_LO := fun _ => 2
  c_LO := fun _ => 5
  nontrivial_f_LO := nontrivial
/-- Radau IIA, two stages; column-major `A_mat` -/
def oEx (reuse : Bool) : Opts ℚ where
  A_mat := fun i => if i = 0 then 5/12 else if i = 1 then 3/4 else if i = 2 then -1/12 else 1/4
  b_vec := fun i => if i = 0 then 3/4 else 1/4
  newton_iter := 3
  newton_tol := 0
  jac_reuse := reuse
def fEx : Facts dEx ℚ :=
  let e1 := lu2 (0, 0) (1, 0) (EE1 dEx (mEx true) (oEx false) (1/2))
  let e2 := lu2 (0, 0) (1, 0) (EE2 dEx (mEx true))
  let m2 := lu2 (0, Sum.inl 0) (1, Sum.inl 0) (M2 dEx (mEx true) (oEx false) (1/2))
  { ee1 := e1, ee2 := e2, m2 := m2
    qq1 := lu2 (0, 0) (1, 0) (QQ1 dEx (mEx true) (oEx false) (1/2) ⟨e1, e2, e2, m2⟩) }
def wEx : Stale dEx ℚ := ⟨0, 0, 0, 0⟩
/-- affine nonlinearity and affine `f_lo` -/
def eEx : Ext dEx ℚ where
  phi := fun y q _ => 2 * y 0 + q 0
  phi_y := fun _ _ _ _ => 2
  phi_u := fun _ _ _ _ => 1
  flo := fun x k z u _ => x 0 + 2 * k 0 + 3 * z 0 + u 0
  flo_x := fun _ _ _ _ _ _ => 1
  flo_k := fun _ _ _ _ _ _ => 2
  flo_u := fun _ _ _ _ _ _ => 1
  flo_z := fun _ _ _ _ _ _ => 3

theorem fEx_exact : Exact dEx (mEx true) (oEx false) (1/2) fEx :=
  ⟨by decide +kernel, by decide +kernel, by decide +kernel, by decide +kernel⟩

/-- the hypotheses of `C63_step_partial`, `C63_run_partial` and `C63_residual` are met by a coupled
differential-algebraic model with a two-stage method -/
example : Exact dEx (mEx true) (oEx false) (1/2) fEx ∧ fEx.qq1.perm = 1 ∧ Clean wEx :=
  ⟨fEx_exact, rfl, fun _ _ _ => rfl⟩

/-- and those of the Newton theorems, with a nonsingular Jacobian; the step moves the state -/
example : (∀ y y' q, eEx.phi y' q = eEx.phi y q + eEx.phi_y y q *ᵥ (y' - y)) ∧
    IsLu (Jrvv dEx (mEx true) (precompute dEx (mEx true) (oEx false) (1/2) fEx wEx) eEx (fun _ => 1)
        (fun _ => 1) 0)
      (lu2 (0, 0) (1, 0) (Jrvv dEx (mEx true) (precompute dEx (mEx true) (oEx false) (1/2) fEx wEx) eEx
        (fun _ => 1) (fun _ => 1) 0)) ∧
    (step dEx (mEx true) (oEx false) (1/2) (precompute dEx (mEx true) (oEx false) (1/2) fEx wEx) eEx
      (lu2 (0, 0) (1, 0)) true (lu2 (0, 0) (1, 0) 1) 0 (fun _ => 1) (fun _ => 1) (fun _ => 1)).x1 0 ≠ 1 := by
  refine ⟨fun y y' q => ?_, by decide +kernel, by decide +kernel⟩
  ext r
  change 2 * y' 0 + q 0 = 2 * y 0 + q 0 + ∑ j : Fin 1, 2 * (y' - y) j
  rw [Fin.sum_univ_one, Pi.sub_apply]
  ring

/-! ### the permutation applied to the wrong matrix -/

/-- one stage, two differential and two algebraic variables -/
abbrev dPerm : Dims := ⟨1, 2, 2, 1, 0, 0, 0, 0, 0⟩
/-- `E = [1 0 1 -1; 0 1 -1 1; 1 0 1 0; 0 1 0 1]`: `E11 = E21 = E22 = 1`, `E12 = 1 - J` with the exchange
matrix `J`; `A = 0`; `B = (0, 0, 1, 0)` -/
def mPerm : Mdl ℚ where
  A := fun i => if i = 2 then 1 else 0
  B := fun i => if i = 2 then 1 else 0
  C := fun _ => 0
  E := fun i => if i = 9 ∨ i = 12 then -1
    else if i = 0 ∨ i = 2 ∨ i = 5 ∨ i = 7 ∨ i = 8 ∨ i = 10 ∨ i = 13 ∨ i = 15 then 1 else 0
  c := fun _ => 0
  L_x := fun _ => 0
  L_xdot := fun _ => 0
  L_z := fun _ => 0
  L_u := fun _ => 0
  A_LO := fun _ => 0
  B_LO := fun _ => 0
  E_LO := fun _ => 0
  c_LO := fun _ => 0
  nontrivial_f_LO := false
/-- explicit Euler -/
def oPerm : Opts ℚ := ⟨fun _ => 0, fun _ => 1, 1, 0, false⟩
/-- the identity needs no exchange, the Schur complement `J` needs one -/
def fPerm : Facts dPerm ℚ where
  ee1 := ⟨1, 1, 1, 1, 1⟩
  ee2 := ⟨1, 1, 1, 1, 1⟩
  qq1 := ⟨Equiv.swap (0, 0) (0, 1), 1, 1, 1, 1⟩
  m2 := ⟨1, 1, 1, 1, 1⟩
def wPerm : Stale dPerm ℚ := ⟨0, 0, 0, 0⟩

local instance : Decidable (Lin1 dPerm mPerm x k z u v) := by unfold Lin1; infer_instance

/-- **C63 fails with pivoting**: with exact factorisations and clean memory, for a well posed
differential-algebraic model, the stage values computed by the integrator violate the model equations —
both for the control input and for the state input, because the permutation meant for `ZZx` is applied
to `ZZu` -/
theorem C63_permutation_false :
    Exact dPerm mPerm oPerm 1 fPerm ∧ Clean wPerm ∧
    ¬ Lin1 dPerm mPerm
        (stageOf oPerm 1 0 (blk (K1val dPerm (precompute dPerm mPerm oPerm 1 fPerm wPerm) 0 (fun _ => 1) 0)) 0)
        (blk (K1val dPerm (precompute dPerm mPerm oPerm 1 fPerm wPerm) 0 (fun _ => 1) 0) 0)
        (blk (Z1val dPerm (precompute dPerm mPerm oPerm 1 fPerm wPerm) 0 (fun _ => 1) 0) 0)
        (fun _ => 1) (fun _ => 0) ∧
    ¬ Lin1 dPerm mPerm
        (stageOf oPerm 1 (fun _ => 1)
          (blk (K1val dPerm (precompute dPerm mPerm oPerm 1 fPerm wPerm) (fun _ => 1) 0 0)) 0)
        (blk (K1val dPerm (precompute dPerm mPerm oPerm 1 fPerm wPerm) (fun _ => 1) 0 0) 0)
        (blk (Z1val dPerm (precompute dPerm mPerm oPerm 1 fPerm wPerm) (fun _ => 1) 0 0) 0)
        0 (fun _ => 0) := by
  refine ⟨⟨by decide +kernel, by decide +kernel, by decide +kernel, by decide +kernel⟩,
    fun _ _ _ => rfl, by decide +kernel, by decide +kernel⟩

/-! ### workspace content that is not overwritten -/

/-- **C63 fails with a dirty workspace**: two stages, `z` enters the nonlinearity; when the workspace
holds a nonzero number outside the diagonal blocks of `LLZ`, the nonlinearity is evaluated at a point that
is not the stage value -/
theorem C63_stale_false :
    ∃ w : Stale dEx ℚ, Exact dEx (mEx true) (oEx false) (1/2) fEx ∧ fEx.qq1.perm = 1 ∧
      blk (yy dEx (precompute dEx (mEx true) (oEx false) (1/2) fEx w) (fun _ => 1) (fun _ => 1) 0) 0
        ≠ yOf dEx (mEx true)
            (stageOf (oEx false) (1/2) (fun _ => 1)
              (blk (K1val dEx (precompute dEx (mEx true) (oEx false) (1/2) fEx w) (fun _ => 1) (fun _ => 1) 0)) 0)
            (blk (K1val dEx (precompute dEx (mEx true) (oEx false) (1/2) fEx w) (fun _ => 1) (fun _ => 1) 0) 0)
            (blk (Z1val dEx (precompute dEx (mEx true) (oEx false) (1/2) fEx w) (fun _ => 1) (fun _ => 1) 0) 0) := by
  refine ⟨⟨fun a b => if a.1 = b.1 then 0 else 1, 0, 0, 0⟩, fEx_exact, rfl, ?_⟩
  intro h
  have h0 := congrFun h 0
  revert h0
  decide +kernel

end examples
end Acados.Gnsf
