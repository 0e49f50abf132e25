import Verif.Lemmas.GnsfSens
/-!
# C64, C65, C66: sensitivities of the GNSF integrator and the fully linear shortcut
-/
namespace Acados.Gnsf
open Matrix
set_option linter.unusedSectionVars false
variable {K : Type*} [Field K] [LinearOrder K]
variable {d : Dims} {m : Mdl K} {o : Opts K} {dt : K} {f : Facts d K} {e : Ext d K}

/-- the memory of the precomputed linear output sensitivities was zero (off the diagonal) before
precompute, as after creation of the integrator -/
def Fresh (w : Stale d K) : Prop := (∀ r c, r ≠ c → w.x2f r c = 0) ∧ w.x2fu = 0

/-- direction of the lifted variable belonging to `(δx1, δu)` -/
def dirV (p : Pre d K) (g : Matrix (VV d) (VV d) K → Lu (VV d) K) (m : Mdl K) (e : Ext d K)
    (x1 : Fin d.nx1 → K) (u : Fin d.nu → K) (v : VV d → K) (δx1 : Fin d.nx1 → K) (δu : Fin d.nu → K) :
    VV d → K :=
  -(solveM (g (Jrvv d m p e x1 u v)) (Jrx d m p e x1 u v) *ᵥ δx1
    + solveM (g (Jrvv d m p e x1 u v)) (Jru d m p e x1 u v) *ᵥ δu)

theorem Jrvv_mulVec (p : Pre d K) (x1 : Fin d.nx1 → K) (u : Fin d.nu → K) (v δ : VV d → K) (a : VV d) :
    (Jrvv d m p e x1 u v *ᵥ δ) a = δ a
      - (e.phi_y (blk (yy d p x1 u v) a.1) (uhat d m u) *ᵥ (blk (p.YYv *ᵥ δ) a.1)) a.2 := by
  rw [← rowBlk_mulVec, Matrix.mulVec_mulVec]
  simp only [Matrix.mulVec, dotProduct, Jrvv, sub_mul, Finset.sum_sub_distrib]
  congr 1
  simp

/-- the direction solves the linearised nonlinearity -/
theorem dirV_eq (p : Pre d K) (g : Matrix (VV d) (VV d) K → Lu (VV d) K)
    (x1 : Fin d.nx1 → K) (u : Fin d.nu → K) (v : VV d → K)
    (hg : IsLu (Jrvv d m p e x1 u v) (g (Jrvv d m p e x1 u v))) (δx1 : Fin d.nx1 → K) (δu : Fin d.nu → K)
    (j : Fin d.s) :
    blk (dirV p g m e x1 u v δx1 δu) j
      = e.phi_y (blk (yy d p x1 u v) j) (uhat d m u) *ᵥ
          blk (p.YYx *ᵥ δx1 + p.YYv *ᵥ dirV p g m e x1 u v δx1 δu + p.YYu *ᵥ δu) j
        + e.phi_u (blk (yy d p x1 u v) j) (uhat d m u) *ᵥ (LuM d m *ᵥ δu) := by
  have h : Jrvv d m p e x1 u v *ᵥ dirV p g m e x1 u v δx1 δu
      = -(Jrx d m p e x1 u v *ᵥ δx1 + Jru d m p e x1 u v *ᵥ δu) := by
    rw [dirV, Matrix.mulVec_neg, Matrix.mulVec_add, Matrix.mulVec_mulVec, Matrix.mulVec_mulVec,
      mul_solveM hg, mul_solveM hg]
  generalize dirV p g m e x1 u v δx1 δu = δ at h ⊢
  ext r
  have h' := congrFun h (j, r)
  rw [Jrvv_mulVec] at h'
  have ex : (Jrx d m p e x1 u v *ᵥ δx1) (j, r)
      = -(e.phi_y (blk (yy d p x1 u v) j) (uhat d m u) *ᵥ blk (p.YYx *ᵥ δx1) j) r := by
    rw [← rowBlk_mulVec, Matrix.mulVec_mulVec]
    simp only [Matrix.mulVec, dotProduct, Jrx, neg_mul, Finset.sum_neg_distrib]
  have eu : (Jru d m p e x1 u v *ᵥ δu) (j, r)
      = -(e.phi_y (blk (yy d p x1 u v) j) (uhat d m u) *ᵥ blk (p.YYu *ᵥ δu) j) r
        - (e.phi_u (blk (yy d p x1 u v) j) (uhat d m u) *ᵥ (LuM d m *ᵥ δu)) r := by
    rw [← rowBlk_mulVec, Matrix.mulVec_mulVec, Matrix.mulVec_mulVec]
    simp only [Matrix.mulVec, dotProduct, Jru, sub_mul, neg_mul, Finset.sum_sub_distrib,
      Finset.sum_neg_distrib]
  have eb : blk (p.YYx *ᵥ δx1 + p.YYv *ᵥ δ + p.YYu *ᵥ δu) j
      = blk (p.YYx *ᵥ δx1) j + blk (p.YYv *ᵥ δ) j + blk (p.YYu *ᵥ δu) j := rfl
  rw [eb]
  simp only [Matrix.mulVec_add, Pi.add_apply, Pi.neg_apply] at h' ⊢
  rw [ex, eu] at h'
  simp only [blk] at h' ⊢
  linear_combination h'

theorem dx2fdx2_eq (w : Stale d K) (hw : ∀ r c, r ≠ c → w.x2f r c = 0) :
    dx2fdx2 d m o dt f w.x2f = addStages2 d o dt (dK2dx2 d m f) 1 := by
  unfold dx2fdx2 addStages2
  congr 1
  ext r c
  by_cases h : r = c
  · subst h; simp
  · simp [h, hw r c h]

/-- **C64** The sensitivities of one step applied to any direction `(δx1, δx2, δu)` give the solution of
the linearised IRK step: stage derivatives, algebraic variables, linear output stages and next state all
satisfy the linearised equations, at the stage values of the step taken.  Missing for the full claim:
trivial pivoting, clean workspace, and no earlier precompute (see `C64_second_precompute_false`). -/
theorem C64_sens_step_partial (hf : Exact d m o dt f) (hp : f.qq1.perm = 1) (w : Stale d K) (hw : Clean w)
    (hfresh : Fresh w) (g : Matrix (VV d) (VV d) K → Lu (VV d) K) (first : Bool) (lu : Lu (VV d) K)
    (v0 : VV d → K) (x1 : Fin d.nx1 → K) (x2 : Fin d.nx2 → K) (u : Fin d.nu → K)
    (wJ : Matrix (K2 d) (K1 d) K)
    (hg : ∀ v, IsLu (Jrvv d m (precompute d m o dt f w) e x1 u v) (g (Jrvv d m (precompute d m o dt f w) e x1 u v)))
    (δx1 : Fin d.nx1 → K) (δx2 : Fin d.nx2 → K) (δu : Fin d.nu → K) :
    let s := step d m o dt (precompute d m o dt f w) e g first lu v0 x1 x2 u
    let S := sensStep d m o dt (precompute d m o dt f w) e g x1 u s wJ
    LinStep d m o dt e x1 u (blk s.k1) (blk s.z1) δx1 δx2 δu
      (blk (S.dK1_dx1 *ᵥ δx1 + S.dK1_du *ᵥ δu)) (blk (S.dZ_dx1 *ᵥ δx1 + S.dZ_du *ᵥ δu))
      (blk (S.dK2_dx1 *ᵥ δx1 + S.dK2_dx2 *ᵥ δx2 + S.dK2_du *ᵥ δu))
      (fun r => (S.dx *ᵥ Sum.elim δx1 δx2 + S.du *ᵥ δu) (Sum.inl r))
      (fun r => (S.dx *ᵥ Sum.elim δx1 δx2 + S.du *ᵥ δu) (Sum.inr r)) := by
  intro s S
  have hLu : ∀ q : Fin d.nu → K, (user m.L_u d.nuh Fin.val Fin.val *ᵥ q) = LuM d m *ᵥ q := by
    intro q; rw [user_pack]; rfl
  have hδ := dirV_eq (precompute d m o dt f w) g x1 u s.v (hg _) δx1 δu
  have ek : S.dK1_dx1 *ᵥ δx1 + S.dK1_du *ᵥ δu = (precompute d m o dt f w).KKx *ᵥ δx1
      + (precompute d m o dt f w).KKv *ᵥ dirV (precompute d m o dt f w) g m e x1 u s.v δx1 δu
      + (precompute d m o dt f w).KKu *ᵥ δu := by
    simp only [S, sensStep, dirV, Matrix.add_mulVec, Matrix.neg_mulVec, Matrix.mulVec_neg,
      Matrix.mulVec_add, Matrix.mulVec_mulVec]
    abel
  have ez : S.dZ_dx1 *ᵥ δx1 + S.dZ_du *ᵥ δu = (precompute d m o dt f w).ZZx *ᵥ δx1
      + (precompute d m o dt f w).ZZv *ᵥ dirV (precompute d m o dt f w) g m e x1 u s.v δx1 δu
      + (precompute d m o dt f w).ZZu *ᵥ δu := by
    simp only [S, sensStep, dirV, Matrix.add_mulVec, Matrix.neg_mulVec, Matrix.mulVec_neg,
      Matrix.mulVec_add, Matrix.mulVec_mulVec]
    abel
  refine ⟨fun j => ?_, fun j => ?_, ?_, ?_⟩
  · have hl := lin_hom hf hp w δx1 δu (dirV (precompute d m o dt f w) g m e x1 u s.v δx1 δu) j _ _ ek ez
    have hy := y_hom (m := m) (o := o) (dt := dt) (f := f) w hw δx1 δu
      (dirV (precompute d m o dt f w) g m e x1 u s.v δx1 δu) j _ _ ek ez
    have hy0 := y_core (m := m) (o := o) (dt := dt) (f := f) w hw x1 u s.v j
    refine hl.trans ?_
    rw [hδ j, hy, hy0, hLu, hLu]
    rfl
  · -- linear output system
    have hk2 : M2 d m o dt *ᵥ (S.dK2_dx1 *ᵥ δx1 + S.dK2_dx2 *ᵥ δx2 + S.dK2_du *ᵥ δu)
        = fun a => ((BLO d m *ᵥ δu) a.2 + (if m.nontrivial_f_LO then
          (floJac d o dt e x1 u s).x a.1 *ᵥ stageOf o dt δx1 (blk (S.dK1_dx1 *ᵥ δx1 + S.dK1_du *ᵥ δu)) a.1
          + (floJac d o dt e x1 u s).k a.1 *ᵥ blk (S.dK1_dx1 *ᵥ δx1 + S.dK1_du *ᵥ δu) a.1
          + (floJac d o dt e x1 u s).z a.1 *ᵥ blk (S.dZ_dx1 *ᵥ δx1 + S.dZ_du *ᵥ δu) a.1
          + (floJac d o dt e x1 u s).u a.1 *ᵥ δu else 0) a.2) + (ALO d m *ᵥ δx2) a.2 := by
      have h2 : M2 d m o dt *ᵥ (S.dK2_dx2 *ᵥ δx2) = stackM d.s (ALO d m) *ᵥ δx2 := by
        change M2 d m o dt *ᵥ (solveM f.m2 (stackM d.s (ALO d m)) *ᵥ δx2) = _
        rw [Matrix.mulVec_mulVec, mul_solveM hf.m2]
      rw [Matrix.mulVec_add, Matrix.mulVec_add, h2]
      cases hn : m.nontrivial_f_LO
      · have h1 : S.dK2_dx1 = 0 := by simp [S, sensStep, hn]
        have h3 : S.dK2_du = solveM f.m2 (stackM d.s (BLO d m)) := by
          simp [S, sensStep, hn, precompute, dK2du]
        rw [h1, h3, Matrix.zero_mulVec, Matrix.mulVec_zero, Matrix.mulVec_mulVec, mul_solveM hf.m2]
        ext a
        simp only [Pi.add_apply, Pi.zero_apply, stackM_mulVec, Bool.false_eq_true, if_false]
        ring
      · have h1 : M2 d m o dt *ᵥ (S.dK2_dx1 *ᵥ δx1)
            = ((-(JG2K1 d o dt (floJac d o dt e x1 u s) wJ * S.dK1_dx1)
              + stackF d.s (fun ii => (floJac d o dt e x1 u s).z ii * rowBlk ii S.dZ_dx1))
              + stackF d.s (floJac d o dt e x1 u s).x) *ᵥ δx1 := by
          have : S.dK2_dx1 = solveM f.m2 ((-(JG2K1 d o dt (floJac d o dt e x1 u s) wJ * S.dK1_dx1)
              + stackF d.s (fun ii => (floJac d o dt e x1 u s).z ii * rowBlk ii S.dZ_dx1))
              + stackF d.s (floJac d o dt e x1 u s).x) := by
            simp [S, sensStep, hn, precompute]
          rw [this, Matrix.mulVec_mulVec, mul_solveM hf.m2]
        have h3 : M2 d m o dt *ᵥ (S.dK2_du *ᵥ δu)
            = ((-(JG2K1 d o dt (floJac d o dt e x1 u s) wJ * S.dK1_du)
              + stackF d.s (fun ii => (floJac d o dt e x1 u s).z ii * rowBlk ii S.dZ_du + BLO d m))
              + stackF d.s (floJac d o dt e x1 u s).u) *ᵥ δu := by
          have : S.dK2_du = solveM f.m2 ((-(JG2K1 d o dt (floJac d o dt e x1 u s) wJ * S.dK1_du)
              + stackF d.s (fun ii => (floJac d o dt e x1 u s).z ii * rowBlk ii S.dZ_du + BLO d m))
              + stackF d.s (floJac d o dt e x1 u s).u) := by
            simp [S, sensStep, hn, precompute]
          rw [this, Matrix.mulVec_mulVec, mul_solveM hf.m2]
        rw [h1, h3]
        generalize floJac d o dt e x1 u s = F
        generalize S.dK1_dx1 = kx
        generalize S.dK1_du = ku
        generalize S.dZ_dx1 = zx
        generalize S.dZ_du = zu
        ext a
        have hJ := JG2K1_mulVec (o := o) (dt := dt) F wJ (kx *ᵥ δx1 + ku *ᵥ δu) a
        have hs := mulVec_stageOf o dt (F.x a.1) δx1 (blk (kx *ᵥ δx1 + ku *ᵥ δu)) a.1 a.2
        rw [Matrix.mulVec_add, Pi.add_apply] at hJ
        have hz : blk (zx *ᵥ δx1 + zu *ᵥ δu) a.1 = blk (zx *ᵥ δx1) a.1 + blk (zu *ᵥ δu) a.1 := rfl
        simp only [Matrix.add_mulVec, Matrix.neg_mulVec, Pi.add_apply, Pi.neg_apply, stackF_mulVec,
          stackM_mulVec, ← Matrix.mulVec_mulVec, rowBlk_mulVec, if_true, hz, Matrix.mulVec_add]
        rw [hs]
        linear_combination -hJ
    have hl := lin2_hom _ δx2 _ hk2 j
    rw [user_ELO, user_LO, user_LO]
    refine hl.trans ?_
    ext r
    have hx : ∀ j, blk (x1stage d o dt x1 s.k1) j = stageOf o dt x1 (blk s.k1) j :=
      fun j => x1stage_eq x1 s.k1 j
    simp only [floJac, hx]
    exact (add_assoc _ _ _).symm
  · ext r
    have h1 : (S.dx *ᵥ Sum.elim δx1 δx2 + S.du *ᵥ δu) (Sum.inl r)
        = (S.x1x1 *ᵥ δx1) r + (S.x1u *ᵥ δu) r := by
      simp [Sens.dx, Sens.du, Matrix.fromBlocks_mulVec, Matrix.fromRows_mulVec]
    rw [h1]
    have e1 : S.x1x1 = addStages1 d o dt S.dK1_dx1 1 := rfl
    have e2 : S.x1u = addStages1 d o dt S.dK1_du 0 := rfl
    rw [e1, e2, addStages1_mulVec, addStages1_mulVec]
    simp only [nextOf, Matrix.one_mulVec, Matrix.zero_mulVec, Pi.zero_apply, Pi.add_apply, blk, bdt,
      Finset.mul_sum, mul_add, Finset.sum_add_distrib, zero_add]
    rw [add_assoc]
    congr 2 <;> exact Finset.sum_congr rfl fun i _ => by ring
  · ext r
    have h1 : (S.dx *ᵥ Sum.elim δx1 δx2 + S.du *ᵥ δu) (Sum.inr r)
        = (S.x2x1 *ᵥ δx1) r + (S.x2x2 *ᵥ δx2) r + (S.x2u *ᵥ δu) r := by
      simp [Sens.dx, Sens.du, Matrix.fromBlocks_mulVec, Matrix.fromRows_mulVec]
    rw [h1]
    have e1 : S.x2x1 = addStages2 d o dt S.dK2_dx1 0 := by
      cases hn : m.nontrivial_f_LO
      · have h1 : S.dK2_dx1 = 0 := by simp [S, sensStep, hn]
        rw [h1]
        have : S.x2x1 = 0 := by simp [S, sensStep, hn]
        rw [this]
        unfold addStages2
        rw [stages_addM]
        ext r c
        simp [Matrix.sum_apply, rowBlk]
      · simp [S, sensStep, hn]
    have e2 : S.x2x2 = addStages2 d o dt S.dK2_dx2 1 := by
      cases hn : m.nontrivial_f_LO
      · have : S.x2x2 = dx2fdx2 d m o dt f w.x2f := by simp [S, sensStep, hn, precompute]
        rw [this, dx2fdx2_eq w hfresh.1]; rfl
      · simp [S, sensStep, hn]
    have e3 : S.x2u = addStages2 d o dt S.dK2_du 0 := by
      cases hn : m.nontrivial_f_LO
      · have h1 : S.x2u = dx2fdu d m o dt f w.x2fu := by simp [S, sensStep, hn, precompute]
        have h2 : S.dK2_du = dK2du d m f := by simp [S, sensStep, hn, precompute]
        rw [h1, h2, hfresh.2]; rfl
      · simp [S, sensStep, hn]
    rw [e1, e2, e3, addStages2_mulVec, addStages2_mulVec, addStages2_mulVec]
    simp only [nextOf, Matrix.one_mulVec, Matrix.zero_mulVec, Pi.zero_apply, Pi.add_apply, blk, bdt,
      Finset.mul_sum, mul_add, Finset.sum_add_distrib, zero_add]
    have hc : ∀ q : K2 d → K, ∑ i : Fin d.s, o.b_vec i.val * dt * q (i, Sum.inl r)
        = ∑ i : Fin d.s, dt * (o.b_vec i.val * q (i, Sum.inl r)) :=
      fun q => Finset.sum_congr rfl fun i _ => by ring
    rw [hc, hc, hc]
    ring

theorem chain_mulVec (ident : Bool) (S : Sens d K) (F : Forw d K) (hid : ident = true → F = ⟨1, 0⟩)
    (a : Fin d.nx1 ⊕ Fin d.nx2 → K) (b : Fin d.nu → K) :
    (chain d ident S F).x *ᵥ a + (chain d ident S F).u *ᵥ b
      = S.dx *ᵥ (F.x *ᵥ a + F.u *ᵥ b) + S.du *ᵥ b := by
  cases ident
  · simp only [chain, Bool.false_eq_true, if_false, Matrix.add_mulVec, Matrix.mulVec_add,
      ← Matrix.mulVec_mulVec]
    abel
  · rw [hid rfl]
    simp only [chain, if_true, Matrix.one_mulVec, Matrix.zero_mulVec, add_zero]

theorem elim_parts {α β : Type*} (t : α ⊕ β → K) :
    Sum.elim (fun r => t (Sum.inl r)) (fun r => t (Sum.inr r)) = t := by
  ext r; cases r <;> rfl

/-- **C64** the forward sensitivities of a simulation with any number of steps: applied to any direction
`(a, b)` of the seed, the result is the end of the chain of linearised steps that starts at the seed
direction -/
theorem C64_run_partial (hf : Exact d m o dt f) (hp : f.qq1.perm = 1) (w : Stale d K) (hw : Clean w)
    (hfresh : Fresh w) (g : Matrix (VV d) (VV d) K → Lu (VV d) K) (u : Fin d.nu → K)
    (wJ : Matrix (K2 d) (K1 d) K)
    (hg : ∀ x1 v, IsLu (Jrvv d m (precompute d m o dt f w) e x1 u v)
      (g (Jrvv d m (precompute d m o dt f w) e x1 u v)))
    (n : Nat) (first : Bool) (lu : Lu (VV d) K) (v0 : VV d → K) (x1 : Fin d.nx1 → K) (x2 : Fin d.nx2 → K)
    (ident : Bool) (F : Forw d K) (hid : ident = true → F = ⟨1, 0⟩)
    (a : Fin d.nx1 ⊕ Fin d.nx2 → K) (b : Fin d.nu → K) :
    let l := simulate d m o dt (precompute d m o dt f w) e g true u n first lu v0 x1 x2
    let F' := forwLoop d m o dt (precompute d m o dt f w) e g u wJ ident x1 l F
    LinRun d m o dt e u b x1 l
      (fun r => (F.x *ᵥ a + F.u *ᵥ b) (Sum.inl r)) (fun r => (F.x *ᵥ a + F.u *ᵥ b) (Sum.inr r))
      (fun r => (F'.x *ᵥ a + F'.u *ᵥ b) (Sum.inl r)) (fun r => (F'.x *ᵥ a + F'.u *ᵥ b) (Sum.inr r)) := by
  induction n generalizing first lu v0 x1 x2 ident F with
  | zero => exact .nil _ _ _
  | succ n ih =>
    have hs := C64_sens_step_partial (e := e) hf hp w hw hfresh g first lu v0 x1 x2 u wJ (hg x1)
      (fun r => (F.x *ᵥ a + F.u *ᵥ b) (Sum.inl r)) (fun r => (F.x *ᵥ a + F.u *ᵥ b) (Sum.inr r)) b
    simp only [elim_parts] at hs
    rw [← chain_mulVec ident _ F hid a b] at hs
    exact .cons _ _ _ _ _ _ _ _ _ _ _ _ hs (ih false _ _ _ _ false _ (fun h => nomatch h))

/-! ## C65: adjoint sensitivities -/

theorem solveM_mulVec {ι ν : Type*} [Fintype ι] [Fintype ν] (lu : Lu ι K) (X : Matrix ι ν K) (x : ν → K) :
    solveM lu X *ᵥ x = solveV lu (X *ᵥ x) := by
  have : (X *ᵥ x) ∘ lu.perm = (X.submatrix lu.perm id) *ᵥ x := rfl
  rw [solveV, this, solveM, trsm, rowpe, Matrix.mulVec_mulVec, Matrix.mulVec_mulVec, Matrix.mul_assoc]

theorem solveV_add {ι : Type*} [Fintype ι] (lu : Lu ι K) (x y : ι → K) :
    solveV lu (x + y) = solveV lu x + solveV lu y := by
  have : (x + y) ∘ lu.perm = x ∘ lu.perm + y ∘ lu.perm := rfl
  simp only [solveV, this, Matrix.mulVec_add]

theorem tdot {ι ν : Type*} [Fintype ι] [Fintype ν] (A : Matrix ι ν K) (l : ι → K) (x : ν → K) :
    (Aᵀ *ᵥ l) ⬝ᵥ x = l ⬝ᵥ (A *ᵥ x) := by
  rw [Matrix.mulVec_transpose, Matrix.dotProduct_mulVec]

/-- **C65** One adjoint step is the transpose of the forward sensitivities of the step: for every adjoint
seed and every direction, `λ' · (δx, δu) = λ · (S_x δx + S_u δu) + λ_u · δu`.  For models with trivial
`f_LO` the workspace blocks `dK2_dvv` and `dK2_dx1` have to be zero (the first is never written, see
`C65_stale_false`). -/
theorem C65_adj_step_partial (w : Stale d K) (hfresh : Fresh w)
    (g : Matrix (VV d) (VV d) K → Lu (VV d) K) (x1 : Fin d.nx1 → K) (u : Fin d.nu → K) (s : StepOut d K)
    (hg : IsLu (Jrvv d m (precompute d m o dt f w) e x1 u s.v)
      (g (Jrvv d m (precompute d m o dt f w) e x1 u s.v)))
    (wJ : Matrix (K2 d) (K1 d) K) (wV : Matrix (K2 d) (VV d) K) (wX : Matrix (K2 d) (Fin d.nx1) K)
    (hV : m.nontrivial_f_LO = false → wV = 0) (hX : m.nontrivial_f_LO = false → wX = 0)
    (l : Adj d K) (δx1 : Fin d.nx1 → K) (δx2 : Fin d.nx2 → K) (δu : Fin d.nu → K) :
    let S := sensStep d m o dt (precompute d m o dt f w) e g x1 u s wJ
    let l' := adjStep d m o dt (precompute d m o dt f w) e g x1 u s wJ wV wX l
    l'.x1 ⬝ᵥ δx1 + l'.x2 ⬝ᵥ δx2 + l'.u ⬝ᵥ δu
      = Sum.elim l.x1 l.x2 ⬝ᵥ (S.dx *ᵥ Sum.elim δx1 δx2 + S.du *ᵥ δu) + l.u ⬝ᵥ δu := by
  intro S l'
  have hJ : Jrvv d m (precompute d m o dt f w) e x1 u s.v
        *ᵥ dirV (precompute d m o dt f w) g m e x1 u s.v δx1 δu
      = -(Jrx d m (precompute d m o dt f w) e x1 u s.v *ᵥ δx1
        + Jru d m (precompute d m o dt f w) e x1 u s.v *ᵥ δu) := by
    rw [dirV, Matrix.mulVec_neg, Matrix.mulVec_add, Matrix.mulVec_mulVec, Matrix.mulVec_mulVec,
      mul_solveM hg, mul_solveM hg]
  have ek : S.dK1_dx1 *ᵥ δx1 + S.dK1_du *ᵥ δu = (precompute d m o dt f w).KKx *ᵥ δx1
      + (precompute d m o dt f w).KKv *ᵥ dirV (precompute d m o dt f w) g m e x1 u s.v δx1 δu
      + (precompute d m o dt f w).KKu *ᵥ δu := by
    simp only [S, sensStep, dirV, Matrix.add_mulVec, Matrix.neg_mulVec, Matrix.mulVec_neg,
      Matrix.mulVec_add, Matrix.mulVec_mulVec]
    abel
  have ez : S.dZ_dx1 *ᵥ δx1 + S.dZ_du *ᵥ δu = (precompute d m o dt f w).ZZx *ᵥ δx1
      + (precompute d m o dt f w).ZZv *ᵥ dirV (precompute d m o dt f w) g m e x1 u s.v δx1 δu
      + (precompute d m o dt f w).ZZu *ᵥ δu := by
    simp only [S, sensStep, dirV, Matrix.add_mulVec, Matrix.neg_mulVec, Matrix.mulVec_neg,
      Matrix.mulVec_add, Matrix.mulVec_mulVec]
    abel
  generalize hv : dirV (precompute d m o dt f w) g m e x1 u s.v δx1 δu = δv at hJ ek ez
  -- the blocks of the adjoint step
  obtain ⟨F, hF⟩ : ∃ F, F = floJac d o dt e x1 u s := ⟨_, rfl⟩
  obtain ⟨p, hpre⟩ : ∃ p, p = precompute d m o dt f w := ⟨_, rfl⟩
  obtain ⟨dvv, hdvv⟩ : ∃ M, M = solveM p.m2 (if m.nontrivial_f_LO then
      -(JG2K1 d o dt F wJ * p.KKv) + stackF d.s (fun ii => F.z ii * rowBlk ii p.ZZv) else wV) := ⟨_, rfl⟩
  obtain ⟨dx1, hdx1⟩ : ∃ M, M = solveM p.m2 (if m.nontrivial_f_LO then
      (-(JG2K1 d o dt F wJ * p.KKx) + stackF d.s (fun ii => F.z ii * rowBlk ii p.ZZx)) + stackF d.s F.x
      else wX) := ⟨_, rfl⟩
  obtain ⟨du, hdu⟩ : ∃ M, M = if m.nontrivial_f_LO then
      solveM p.m2 ((-(JG2K1 d o dt F wJ * p.KKu)
        + stackF d.s (fun ii => F.z ii * rowBlk ii p.ZZu + BLO d m)) + stackF d.s F.u)
      else p.dK2_du := ⟨_, rfl⟩
  have ek2 : S.dK2_dx1 *ᵥ δx1 + S.dK2_du *ᵥ δu = dx1 *ᵥ δx1 + dvv *ᵥ δv + du *ᵥ δu := by
    rw [hdx1, hdvv, hdu]
    cases hn : m.nontrivial_f_LO
    · have h1 : S.dK2_dx1 = 0 := by simp [S, sensStep, hn]
      have h2 : S.dK2_du = p.dK2_du := by simp [S, sensStep, hn, hpre]
      rw [h1, h2, hV hn, hX hn]
      simp only [Bool.false_eq_true, if_false, solveM_mulVec, Matrix.zero_mulVec]
      have h0 : solveV p.m2 (0 : K2 d → K) = 0 := by
        ext a; simp [solveV, Matrix.mulVec, dotProduct]
      rw [h0]; simp
    · have h1 : S.dK2_dx1 = solveM p.m2 ((-(JG2K1 d o dt F wJ * S.dK1_dx1)
          + stackF d.s (fun ii => F.z ii * rowBlk ii S.dZ_dx1)) + stackF d.s F.x) := by
        simp [S, sensStep, hn, hpre, hF]
      have h2 : S.dK2_du = solveM p.m2 ((-(JG2K1 d o dt F wJ * S.dK1_du)
          + stackF d.s (fun ii => F.z ii * rowBlk ii S.dZ_du + BLO d m)) + stackF d.s F.u) := by
        simp [S, sensStep, hn, hpre, hF]
      rw [h1, h2]
      simp only [if_true, solveM_mulVec, ← solveV_add]
      congr 1
      rw [← hpre] at ek ez
      generalize S.dK1_dx1 = kx at *
      generalize S.dK1_du = ku at *
      generalize S.dZ_dx1 = zx at *
      generalize S.dZ_du = zu at *
      ext a
      have e1 := congrFun (congrArg (JG2K1 d o dt F wJ *ᵥ ·) ek) a
      have e2 := congrFun (congrArg (fun q => F.z a.1 *ᵥ blk q a.1) ez) a.2
      have hb : ∀ q q' : Z1 d → K, blk (q + q') a.1 = blk q a.1 + blk q' a.1 := fun _ _ => rfl
      simp only [Matrix.mulVec_add, Pi.add_apply, hb] at e1 e2
      simp only [Matrix.add_mulVec, Matrix.neg_mulVec, Pi.add_apply, Pi.neg_apply, stackF_mulVec,
        ← Matrix.mulVec_mulVec, rowBlk_mulVec]
      linear_combination -e1 + e2
  have hx1 : (fun r => (S.dx *ᵥ Sum.elim δx1 δx2 + S.du *ᵥ δu) (Sum.inl r))
      = addStages1 d o dt p.KKx 1 *ᵥ δx1 + addStages1 d o dt p.KKv 0 *ᵥ δv
        + addStages1 d o dt p.KKu 0 *ᵥ δu := by
    ext r
    have h1 : (S.dx *ᵥ Sum.elim δx1 δx2 + S.du *ᵥ δu) (Sum.inl r)
        = (S.x1x1 *ᵥ δx1) r + (S.x1u *ᵥ δu) r := by
      simp [Sens.dx, Sens.du, Matrix.fromBlocks_mulVec, Matrix.fromRows_mulVec]
    have e1 : S.x1x1 = addStages1 d o dt S.dK1_dx1 1 := rfl
    have e2 : S.x1u = addStages1 d o dt S.dK1_du 0 := rfl
    rw [h1, e1, e2]
    simp only [Pi.add_apply, addStages1_mulVec, Matrix.one_mulVec, Matrix.zero_mulVec, Pi.zero_apply,
      zero_add]
    have h2 : ∀ i : Fin d.s, (S.dK1_dx1 *ᵥ δx1) (i, r) + (S.dK1_du *ᵥ δu) (i, r)
        = (p.KKx *ᵥ δx1) (i, r) + (p.KKv *ᵥ δv) (i, r) + (p.KKu *ᵥ δu) (i, r) := by
      intro i
      rw [hpre]
      exact congrFun ek (i, r)
    rw [add_assoc, ← Finset.sum_add_distrib, add_assoc, add_assoc, ← Finset.sum_add_distrib,
      ← Finset.sum_add_distrib]
    congr 1
    exact Finset.sum_congr rfl fun i _ => by rw [← mul_add, h2 i]; ring
  have hx2 : (fun r => (S.dx *ᵥ Sum.elim δx1 δx2 + S.du *ᵥ δu) (Sum.inr r))
      = addStages2 d o dt dx1 0 *ᵥ δx1 + addStages2 d o dt dvv 0 *ᵥ δv
        + addStages2 d o dt p.dK2_dx2 1 *ᵥ δx2 + addStages2 d o dt du 0 *ᵥ δu := by
    ext r
    have h1 : (S.dx *ᵥ Sum.elim δx1 δx2 + S.du *ᵥ δu) (Sum.inr r)
        = (S.x2x1 *ᵥ δx1) r + (S.x2x2 *ᵥ δx2) r + (S.x2u *ᵥ δu) r := by
      simp [Sens.dx, Sens.du, Matrix.fromBlocks_mulVec, Matrix.fromRows_mulVec]
    have e1 : S.x2x1 = addStages2 d o dt S.dK2_dx1 0 := by
      cases hn : m.nontrivial_f_LO
      · have h1 : S.dK2_dx1 = 0 := by simp [S, sensStep, hn]
        rw [h1]
        have : S.x2x1 = 0 := by simp [S, sensStep, hn]
        rw [this]
        unfold addStages2
        rw [stages_addM]
        ext r c
        simp [Matrix.sum_apply, rowBlk]
      · simp [S, sensStep, hn]
    have e2 : S.x2x2 = addStages2 d o dt p.dK2_dx2 1 := by
      cases hn : m.nontrivial_f_LO
      · have : S.x2x2 = dx2fdx2 d m o dt f w.x2f := by simp [S, sensStep, hn, precompute]
        rw [this, dx2fdx2_eq w hfresh.1, hpre]; rfl
      · simp [S, sensStep, hn, hpre]
    have e3 : S.x2u = addStages2 d o dt S.dK2_du 0 := by
      cases hn : m.nontrivial_f_LO
      · have h1 : S.x2u = dx2fdu d m o dt f w.x2fu := by simp [S, sensStep, hn, precompute]
        have h2 : S.dK2_du = dK2du d m f := by simp [S, sensStep, hn, precompute]
        rw [h1, h2, hfresh.2]; rfl
      · simp [S, sensStep, hn]
    rw [h1, e1, e2, e3]
    simp only [Pi.add_apply, addStages2_mulVec, Matrix.one_mulVec, Matrix.zero_mulVec, Pi.zero_apply,
      zero_add]
    have h2 : ∀ i : Fin d.s, (S.dK2_dx1 *ᵥ δx1) (i, Sum.inl r) + (S.dK2_du *ᵥ δu) (i, Sum.inl r)
        = (dx1 *ᵥ δx1) (i, Sum.inl r) + (dvv *ᵥ δv) (i, Sum.inl r) + (du *ᵥ δu) (i, Sum.inl r) :=
      fun i => congrFun ek2 (i, Sum.inl r)
    have h3 : ∑ i : Fin d.s, bdt o dt i.val * (S.dK2_dx1 *ᵥ δx1) (i, Sum.inl r)
          + ∑ i : Fin d.s, bdt o dt i.val * (S.dK2_du *ᵥ δu) (i, Sum.inl r)
        = ∑ i : Fin d.s, bdt o dt i.val * (dx1 *ᵥ δx1) (i, Sum.inl r)
          + ∑ i : Fin d.s, bdt o dt i.val * (dvv *ᵥ δv) (i, Sum.inl r)
          + ∑ i : Fin d.s, bdt o dt i.val * (du *ᵥ δu) (i, Sum.inl r) := by
      rw [← Finset.sum_add_distrib, ← Finset.sum_add_distrib, ← Finset.sum_add_distrib]
      exact Finset.sum_congr rfl fun i _ => by rw [← mul_add, h2 i]; ring
    linear_combination h3
  have hsplit : ∀ t : Fin d.nx1 ⊕ Fin d.nx2 → K, Sum.elim l.x1 l.x2 ⬝ᵥ t
      = l.x1 ⬝ᵥ (fun r => t (Sum.inl r)) + l.x2 ⬝ᵥ (fun r => t (Sum.inr r)) := by
    intro t
    simp [dotProduct, Fintype.sum_sum_type]
  rw [hsplit, hx1, hx2]
  obtain ⟨lv, hlv⟩ : ∃ q, q = solveT (g (Jrvv d m p e x1 u s.v))
      ((addStages1 d o dt p.KKv 0)ᵀ *ᵥ l.x1 + (addStages2 d o dt dvv 0)ᵀ *ᵥ l.x2) := ⟨_, rfl⟩
  have hl1 : l'.x1 = -((Jrx d m p e x1 u s.v)ᵀ *ᵥ lv)
      + ((addStages1 d o dt p.KKx 1)ᵀ *ᵥ l.x1 + (addStages2 d o dt dx1 0)ᵀ *ᵥ l.x2) := by
    rw [hlv, hdvv, hdx1, hF, hpre]; rfl
  have hl2 : l'.x2 = (addStages2 d o dt p.dK2_dx2 1)ᵀ *ᵥ l.x2 := by rw [hpre]; rfl
  have hl3 : l'.u = -((Jru d m p e x1 u s.v)ᵀ *ᵥ lv)
      + (((addStages1 d o dt p.KKu 0)ᵀ *ᵥ l.x1 + (addStages2 d o dt du 0)ᵀ *ᵥ l.x2) + l.u) := by
    rw [hlv, hdvv, hdu, hF, hpre]; rfl
  rw [← hpre] at hg hJ
  have hT := mulVec_solveT hg ((addStages1 d o dt p.KKv 0)ᵀ *ᵥ l.x1 + (addStages2 d o dt dvv 0)ᵀ *ᵥ l.x2)
  rw [← hlv] at hT
  have hadj : l.x1 ⬝ᵥ (addStages1 d o dt p.KKv 0 *ᵥ δv) + l.x2 ⬝ᵥ (addStages2 d o dt dvv 0 *ᵥ δv)
      = -(lv ⬝ᵥ (Jrx d m p e x1 u s.v *ᵥ δx1)) - lv ⬝ᵥ (Jru d m p e x1 u s.v *ᵥ δu) := by
    have h1 := congrArg (· ⬝ᵥ δv) hT
    simp only [add_dotProduct, tdot, hJ, dotProduct_neg, dotProduct_add] at h1
    linear_combination -h1
  rw [hl1, hl2, hl3]
  simp only [add_dotProduct, neg_dotProduct, tdot, dotProduct_add]
  linear_combination -hadj

/-- **C65** the adjoint loop over all steps is the transpose of the forward sensitivity loop: for every
seed matrix, direction and adjoint seed -/
theorem C65_adj_run_partial (w : Stale d K) (hfresh : Fresh w)
    (g : Matrix (VV d) (VV d) K → Lu (VV d) K) (u : Fin d.nu → K)
    (hg : ∀ x1 v, IsLu (Jrvv d m (precompute d m o dt f w) e x1 u v)
      (g (Jrvv d m (precompute d m o dt f w) e x1 u v)))
    (wJ : Matrix (K2 d) (K1 d) K) (wV : Matrix (K2 d) (VV d) K) (wX : Matrix (K2 d) (Fin d.nx1) K)
    (hV : m.nontrivial_f_LO = false → wV = 0) (hX : m.nontrivial_f_LO = false → wX = 0)
    (l : Adj d K) (steps : List (StepOut d K)) (x1 : Fin d.nx1 → K) (ident : Bool) (F : Forw d K)
    (hid : ident = true → F = ⟨1, 0⟩) (a : Fin d.nx1 ⊕ Fin d.nx2 → K) (b : Fin d.nu → K) :
    let l' := adjLoop d m o dt (precompute d m o dt f w) e g u wJ wV wX x1 steps l
    let F' := forwLoop d m o dt (precompute d m o dt f w) e g u wJ ident x1 steps F
    Sum.elim l'.x1 l'.x2 ⬝ᵥ (F.x *ᵥ a + F.u *ᵥ b) + l'.u ⬝ᵥ b
      = Sum.elim l.x1 l.x2 ⬝ᵥ (F'.x *ᵥ a + F'.u *ᵥ b) + l.u ⬝ᵥ b := by
  induction steps generalizing x1 ident F with
  | nil => rfl
  | cons s steps ih =>
    have h := ih s.x1 false (chain d ident (sensStep d m o dt (precompute d m o dt f w) e g x1 u s wJ) F)
      (fun h => nomatch h)
    simp only [forwLoop, adjLoop] at h ⊢
    rw [← h, chain_mulVec ident _ F hid a b]
    obtain ⟨t, ht⟩ : ∃ t, t = F.x *ᵥ a + F.u *ᵥ b := ⟨_, rfl⟩
    rw [← ht]
    have hs := C65_adj_step_partial (f := f) w hfresh g x1 u s (hg x1 s.v) wJ wV wX hV hX
      (adjLoop d m o dt (precompute d m o dt f w) e g u wJ wV wX s.x1 steps l)
      (fun r => t (Sum.inl r)) (fun r => t (Sum.inr r)) b
    simp only [elim_parts] at hs
    rw [← hs]
    simp [dotProduct, Fintype.sum_sum_type]

/-! ## C66: fully linear models -/

/-- state at the end of a list of steps -/
def endState (x1 : Fin d.nx1 → K) (x2 : Fin d.nx2 → K) : List (StepOut d K) → Fin d.nx1 ⊕ Fin d.nx2 → K
  | [] => Sum.elim x1 x2
  | s :: l => endState s.x1 s.x2 l

/-- one step of a fully linear model without constant term is the application of its sensitivities -/
theorem linear_step (h1 : d.nx1 = 0) (hn : m.nontrivial_f_LO = false) (hc : ∀ i, m.c_LO i = 0)
    (w : Stale d K) (hfresh : Fresh w) (g g' : Matrix (VV d) (VV d) K → Lu (VV d) K) (first : Bool)
    (lu : Lu (VV d) K) (v0 : VV d → K) (x1 x1' : Fin d.nx1 → K) (x2 : Fin d.nx2 → K) (u u' : Fin d.nu → K)
    (s' : StepOut d K) (wJ : Matrix (K2 d) (K1 d) K) :
    let s := step d m o dt (precompute d m o dt f w) e g first lu v0 x1 x2 u
    let S := sensStep d m o dt (precompute d m o dt f w) e g' x1' u' s' wJ
    Sum.elim s.x1 s.x2 = S.dx *ᵥ Sum.elim x1 x2 + S.du *ᵥ u := by
  intro s S
  ext r
  cases r with
  | inl r => exact absurd r.isLt (by omega)
  | inr r =>
    have e0 : (S.dx *ᵥ Sum.elim x1 x2 + S.du *ᵥ u) (Sum.inr r)
        = (S.x2x1 *ᵥ x1) r + (S.x2x2 *ᵥ x2) r + (S.x2u *ᵥ u) r := by
      simp [Sens.dx, Sens.du, Matrix.fromBlocks_mulVec, Matrix.fromRows_mulVec]
    have e1 : S.x2x1 = 0 := by simp [S, sensStep, hn]
    have e2 : S.x2x2 = addStages2 d o dt (dK2dx2 d m f) 1 := by
      have : S.x2x2 = dx2fdx2 d m o dt f w.x2f := by simp [S, sensStep, hn, precompute]
      rw [this, dx2fdx2_eq w hfresh.1]
    have e3 : S.x2u = addStages2 d o dt (dK2du d m f) 0 := by
      have h1 : S.x2u = dx2fdu d m o dt f w.x2fu := by simp [S, sensStep, hn, precompute]
      rw [h1, hfresh.2]; rfl
    have hk : s.k2 = dK2dx2 d m f *ᵥ x2 + dK2du d m f *ᵥ u := by
      have : s.k2 = fun a => - solveV f.m2 (fun a : K2 d => - (ALO d m *ᵥ x2 + (BLO d m *ᵥ u
          + fun r => m.c_LO (pos2 d r))) a.2) a := by
        simp only [s, step, K2val, hn, Bool.false_eq_true, if_false]
        rfl
      rw [this, dK2dx2, dK2du, solveM_mulVec, solveM_mulVec, ← solveV_add]
      have hneg : ∀ q : K2 d → K, (fun a => - solveV f.m2 (fun b => - q b) a) = solveV f.m2 q := by
        intro q
        have h : solveV f.m2 (-q) = - solveV f.m2 q := by
          have : (-q) ∘ f.m2.perm = -(q ∘ f.m2.perm) := rfl
          simp only [solveV, this, Matrix.mulVec_neg]
        ext a
        have := congrFun h a
        change - solveV f.m2 (-q) a = _
        rw [this]; simp
      rw [hneg]
      congr 1
      ext a
      simp [stackM_mulVec, hc]
    rw [e0, e1, e2, e3, addStages2_mulVec, addStages2_mulVec]
    have hx : s.x2 = nextOf o dt x2 (fun i c => s.k2 (i, Sum.inl c)) := stepX2_eq x2 s.k2
    rw [Sum.elim_inr, hx, hk]
    simp only [nextOf, Matrix.one_mulVec, Matrix.zero_mulVec, Pi.zero_apply, Pi.add_apply, bdt,
      Finset.mul_sum, mul_add, Finset.sum_add_distrib, zero_add]
    have hcc : ∀ q : K2 d → K, ∑ i : Fin d.s, o.b_vec i.val * dt * q (i, Sum.inl r)
        = ∑ i : Fin d.s, dt * (o.b_vec i.val * q (i, Sum.inl r)) :=
      fun q => Finset.sum_congr rfl fun i _ => by ring
    rw [hcc, hcc]
    ring

/-- **C66** For a fully linear model (`nx1 = 0`, trivial `f_LO`) without constant term, a call that uses
the matrices stored by precompute returns the same state as the integration itself would, for every
state and control, provided forward sensitivities were on during precompute. -/
theorem C66_linear_state_partial (h1 : d.nx1 = 0) (hn : m.nontrivial_f_LO = false) (hc : ∀ i, m.c_LO i = 0)
    (w : Stale d K) (hfresh : Fresh w) (g : Matrix (VV d) (VV d) K → Lu (VV d) K)
    (wJ : Matrix (K2 d) (K1 d) K) (n : Nat)
    (lu lu' : Lu (VV d) K) (v0 v0' : VV d → K) (y1 : Fin d.nx1 → K) (y2 : Fin d.nx2 → K) (q : Fin d.nu → K)
    (x1 : Fin d.nx1 → K) (x2 : Fin d.nx2 → K) (u : Fin d.nu → K) :
    let p := precompute d m o dt f w
    linearX d (storedForw d m o dt p e g true wJ n lu v0 y1 y2 q) (Sum.elim x1 x2) u
      = endState x1 x2 (simulate d m o dt p e g true u n true lu' v0' x1 x2) := by
  intro p
  have key : ∀ (n : Nat) (first first' : Bool) (lu lu' : Lu (VV d) K) (v0 v0' : VV d → K)
      (y1 : Fin d.nx1 → K) (y2 : Fin d.nx2 → K) (x1 : Fin d.nx1 → K) (x2 : Fin d.nx2 → K)
      (ident : Bool) (F : Forw d K) (_ : ident = true → F = ⟨1, 0⟩) (a : Fin d.nx1 ⊕ Fin d.nx2 → K)
      (_ : F.x *ᵥ a + F.u *ᵥ u = Sum.elim x1 x2),
      (forwLoop d m o dt p e g q wJ ident y1 (simulate d m o dt p e g true q n first lu v0 y1 y2) F).x *ᵥ a
        + (forwLoop d m o dt p e g q wJ ident y1 (simulate d m o dt p e g true q n first lu v0 y1 y2) F).u *ᵥ u
      = endState x1 x2 (simulate d m o dt p e g true u n first' lu' v0' x1 x2) := by
    intro n
    induction n with
    | zero => intro _ _ _ _ _ _ _ _ _ _ _ _ _ _ h; exact h
    | succ n ih =>
      intro first first' lu lu' v0 v0' y1 y2 x1 x2 ident F hid a h
      simp only [simulate, forwLoop, endState]
      refine ih false false _ _ _ _ _ _ _ _ false _ (fun h => nomatch h) a ?_
      rw [chain_mulVec ident _ F hid a u, h]
      exact (linear_step (e := e) h1 hn hc w hfresh g g first' lu' v0' x1 y1 x2 u q _ wJ).symm
  have h := key n true true lu lu' v0 v0' y1 y2 x1 x2 true ⟨1, 0⟩ (fun _ => rfl) (Sum.elim x1 x2)
    (by simp)
  unfold linearX storedForw
  rw [add_comm]
  exact h

/-- the matrices of a step of a fully linear model do not depend on where they are evaluated -/
theorem linear_sens_const (h1 : d.nx1 = 0) (hn : m.nontrivial_f_LO = false) (p : Pre d K)
    (g g' : Matrix (VV d) (VV d) K → Lu (VV d) K) (x1 x1' : Fin d.nx1 → K) (u u' : Fin d.nu → K)
    (s s' : StepOut d K) (wJ wJ' : Matrix (K2 d) (K1 d) K) :
    (sensStep d m o dt p e g x1 u s wJ).dx = (sensStep d m o dt p e g' x1' u' s' wJ').dx ∧
    (sensStep d m o dt p e g x1 u s wJ).du = (sensStep d m o dt p e g' x1' u' s' wJ').du := by
  constructor
  · ext r c
    cases r with
    | inl r => exact absurd r.isLt (by omega)
    | inr r =>
      cases c with
      | inl c => exact absurd c.isLt (by omega)
      | inr c => simp [Sens.dx, sensStep, hn]
  · ext r c
    cases r with
    | inl r => exact absurd r.isLt (by omega)
    | inr r => simp [Sens.du, sensStep, hn]

/-- **C66** the stored matrices are the forward sensitivities (identity seed) of the integration from
every other state and control -/
theorem C66_linear_forw (h1 : d.nx1 = 0) (hn : m.nontrivial_f_LO = false) (p : Pre d K)
    (g : Matrix (VV d) (VV d) K → Lu (VV d) K) (wJ wJ' : Matrix (K2 d) (K1 d) K) (n : Nat)
    (lu lu' : Lu (VV d) K) (v0 v0' : VV d → K) (y1 : Fin d.nx1 → K) (y2 : Fin d.nx2 → K) (q : Fin d.nu → K)
    (x1 : Fin d.nx1 → K) (x2 : Fin d.nx2 → K) (u : Fin d.nu → K) (seed old : Forw d K) :
    linearForw d (storedForw d m o dt p e g true wJ n lu v0 y1 y2 q) true seed old
      = forwLoop d m o dt p e g u wJ' true x1 (simulate d m o dt p e g true u n true lu' v0' x1 x2) ⟨1, 0⟩ := by
  have key : ∀ (n : Nat) (first first' : Bool) (lu lu' : Lu (VV d) K) (v0 v0' : VV d → K)
      (y1 : Fin d.nx1 → K) (y2 : Fin d.nx2 → K) (x1 : Fin d.nx1 → K) (x2 : Fin d.nx2 → K)
      (ident : Bool) (F : Forw d K),
      forwLoop d m o dt p e g q wJ ident y1 (simulate d m o dt p e g true q n first lu v0 y1 y2) F
      = forwLoop d m o dt p e g u wJ' ident x1 (simulate d m o dt p e g true u n first' lu' v0' x1 x2) F := by
    intro n
    induction n with
    | zero => intros; rfl
    | succ n ih =>
      intro first first' lu lu' v0 v0' y1 y2 x1 x2 ident F
      simp only [simulate, forwLoop]
      have hc := linear_sens_const (o := o) (dt := dt) (e := e) h1 hn p g g y1 x1 q u
        (step d m o dt p e g first lu v0 y1 y2 q) (step d m o dt p e g first' lu' v0' x1 x2 u) wJ wJ'
      have hch : chain d ident (sensStep d m o dt p e g y1 q (step d m o dt p e g first lu v0 y1 y2 q) wJ) F
          = chain d ident (sensStep d m o dt p e g x1 u
              (step d m o dt p e g first' lu' v0' x1 x2 u) wJ') F := by
        simp only [chain, hc.1, hc.2]
      rw [hch]
      exact ih false false _ _ _ _ _ _ _ _ false _
  simp only [linearForw, if_true, storedForw]
  exact key n true true lu lu' v0 v0' y1 y2 x1 x2 true ⟨1, 0⟩

/-- **C66** with an adjoint seed that has no control part, the adjoint returned by the shortcut pairs with
every direction as the adjoint loop of the integration would -/
theorem C66_linear_adj_partial (h1 : d.nx1 = 0) (hn : m.nontrivial_f_LO = false)
    (w : Stale d K) (hfresh : Fresh w)
    (g : Matrix (VV d) (VV d) K → Lu (VV d) K) (wJ wJ' : Matrix (K2 d) (K1 d) K) (n : Nat)
    (lu lu' : Lu (VV d) K) (v0 v0' : VV d → K) (y1 : Fin d.nx1 → K) (y2 : Fin d.nx2 → K) (q : Fin d.nu → K)
    (x1 : Fin d.nx1 → K) (x2 : Fin d.nx2 → K) (u : Fin d.nu → K)
    (hg : ∀ x1 v, IsLu (Jrvv d m (precompute d m o dt f w) e x1 u v)
      (g (Jrvv d m (precompute d m o dt f w) e x1 u v)))
    (l : Adj d K) (hlu : l.u = 0) (a : Fin d.nx1 ⊕ Fin d.nx2 → K) (b : Fin d.nu → K) :
    let p := precompute d m o dt f w
    let r := linearAdj d (storedForw d m o dt p e g true wJ n lu v0 y1 y2 q) (Sum.elim l.x1 l.x2)
    let r' := adjLoop d m o dt p e g u wJ' 0 0 x1 (simulate d m o dt p e g true u n true lu' v0' x1 x2) l
    r.1 ⬝ᵥ a + r.2 ⬝ᵥ b = Sum.elim r'.x1 r'.x2 ⬝ᵥ a + r'.u ⬝ᵥ b := by
  intro p r r'
  have h := C65_adj_run_partial (m := m) (o := o) (dt := dt) (f := f) (e := e) w hfresh g u hg wJ' 0 0
    (fun _ => rfl) (fun _ => rfl) l (simulate d m o dt p e g true u n true lu' v0' x1 x2) x1 true ⟨1, 0⟩
    (fun _ => rfl) a b
  have hF := C66_linear_forw (o := o) (dt := dt) (e := e) h1 hn p g wJ wJ' n lu lu' v0 v0' y1 y2 q x1 x2 u
    ⟨1, 0⟩ ⟨1, 0⟩
  simp only [linearForw, if_true] at hF
  simp only [Matrix.one_mulVec, Matrix.zero_mulVec, add_zero] at h
  simp only [r, r', linearAdj]
  rw [h, hF, tdot, tdot, hlu, zero_dotProduct, add_zero, dotProduct_add]

/-! ## Concrete cases -/

section examples
local instance {ι : Type} [Fintype ι] [DecidableEq ι] (M : Matrix ι ι ℚ) (lu : Lu ι ℚ) :
    Decidable (IsLu M lu) := by unfold IsLu; infer_instance

/-- the Jacobian of the residual of the affine example is the same everywhere -/
theorem eEx_J (w : Stale dEx ℚ) (x1 : Fin dEx.nx1 → ℚ) (u : Fin dEx.nu → ℚ) (v : VV dEx → ℚ) :
    Jrvv dEx (mEx true) (precompute dEx (mEx true) (oEx false) (1/2) fEx w) eEx x1 u v
      = Jrvv dEx (mEx true) (precompute dEx (mEx true) (oEx false) (1/2) fEx w) eEx 0 0 0 := rfl

/-- the hypotheses of `C64_sens_step_partial`, `C64_run_partial`, `C65_adj_step_partial` and
`C65_adj_run_partial` hold for the differential-algebraic example, at every state and control; and of
`C63_newton` -/
example : Exact dEx (mEx true) (oEx false) (1/2) fEx ∧ fEx.qq1.perm = 1 ∧ Clean wEx ∧ Fresh wEx ∧
    (∀ x1 u v, IsLu (Jrvv dEx (mEx true) (precompute dEx (mEx true) (oEx false) (1/2) fEx wEx) eEx x1 u v)
      (lu2 (0, 0) (1, 0) (Jrvv dEx (mEx true) (precompute dEx (mEx true) (oEx false) (1/2) fEx wEx) eEx
        x1 u v))) := by
  refine ⟨fEx_exact, rfl, fun _ _ _ => rfl, ⟨fun _ _ _ => rfl, rfl⟩, fun x1 u v => ?_⟩
  rw [eEx_J]
  decide +kernel

/-- the sensitivities of the example are not trivial -/
example :
    let p := precompute dEx (mEx true) (oEx false) (1/2) fEx wEx
    let s := step dEx (mEx true) (oEx false) (1/2) p eEx (lu2 (0, 0) (1, 0)) true (lu2 (0, 0) (1, 0) 1) 0
      (fun _ => 1) (fun _ => 1) (fun _ => 1)
    let S := sensStep dEx (mEx true) (oEx false) (1/2) p eEx (lu2 (0, 0) (1, 0)) (fun _ => 1) (fun _ => 1) s 0
    S.x1x1 0 0 ≠ 1 ∧ S.x2x1 0 0 ≠ 0 ∧ S.x2x2 0 0 ≠ 1 ∧ S.x2u 0 0 ≠ 0 := by
  decide +kernel

/-- one stage, one output state, one control, nothing nonlinear -/
abbrev dLin : Dims := ⟨1, 0, 0, 1, 0, 0, 0, 1, 0⟩
/-- `x' = a x + b u + c` -/
def mLin (a b c : ℚ) : Mdl ℚ where
  A := fun _ => 0
  B := fun _ => 0
  C := fun _ => 0
  E := fun _ => 0
  c := fun _ => 0
  L_x := fun _ => 0
  L_xdot := fun _ => 0
  L_z := fun _ => 0
  L_u := fun _ => 0
  A_LO := fun _ => a
  B_LO := fun _ => b
  E_LO := fun _ => 1
  c_LO := fun _ => c
  nontrivial_f_LO := false
/-- implicit Euler -/
def oLin : Opts ℚ := ⟨fun _ => 1, fun _ => 1, 1, 0, false⟩
def fLin (a b c : ℚ) : Facts dLin ℚ where
  ee1 := ⟨1, 1, 1, 1, 1⟩
  ee2 := ⟨1, 1, 1, 1, 1⟩
  qq1 := ⟨1, 1, 1, 1, 1⟩
  m2 := ⟨1, 1, M2 dLin (mLin a b c) oLin 1, 1, fun _ _ => 1 / (1 - a)⟩
def wLin : Stale dLin ℚ := ⟨0, 0, 0, 0⟩
def eLin : Ext dLin ℚ := ⟨fun _ _ => 0, fun _ _ => 0, fun _ _ => 0, fun _ _ _ _ => 0, fun _ _ _ _ => 0,
  fun _ _ _ _ => 0, fun _ _ _ _ => 0, fun _ _ _ _ => 0⟩
def luLin : Lu (VV dLin) ℚ := ⟨1, 1, 1, 1, 1⟩
abbrev pLin (a b c : ℚ) : Pre dLin ℚ := precompute dLin (mLin a b c) oLin 1 (fLin a b c) wLin

/-- the hypotheses of the C66 theorems hold for `x' = -x + 2 u`, and the state moves -/
example : dLin.nx1 = 0 ∧ (∀ i, (mLin (-1) 2 0).c_LO i = 0) ∧ Fresh wLin ∧
    Exact dLin (mLin (-1) 2 0) oLin 1 (fLin (-1) 2 0) ∧
    (∀ x1 u v, IsLu (Jrvv dLin (mLin (-1) 2 0) (pLin (-1) 2 0) eLin x1 u v) luLin) ∧
    endState (d := dLin) Fin.elim0 (fun _ => 4) (simulate dLin (mLin (-1) 2 0) oLin 1 (pLin (-1) 2 0) eLin
      (fun _ => luLin) true (fun _ => 3) 2 true luLin 0 Fin.elim0 (fun _ => 4)) (Sum.inr 0) = 11/2 := by
  refine ⟨rfl, fun _ => rfl, ⟨fun _ _ _ => rfl, rfl⟩, ⟨by decide +kernel, by decide +kernel,
    by decide +kernel, by decide +kernel⟩, fun x1 u v => ?_, by decide +kernel⟩
  have : IsEmpty (VV dLin) := ⟨fun a => a.2.elim0⟩
  refine ⟨?_, ?_, ?_⟩ <;> · ext a; exact this.elim a

/-- **C66 fails with a constant term**: for `x' = 1` from `x = 4` one step reaches 5, the shortcut
returns 4 -/
theorem C66_constant_false :
    Exact dLin (mLin 0 0 1) oLin 1 (fLin 0 0 1) ∧ Fresh wLin ∧
    endState (d := dLin) Fin.elim0 (fun _ => 4) (simulate dLin (mLin 0 0 1) oLin 1 (pLin 0 0 1) eLin
      (fun _ => luLin) true (fun _ => 0) 1 true luLin 0 Fin.elim0 (fun _ => 4)) (Sum.inr 0) = 5 ∧
    linearX dLin (storedForw dLin (mLin 0 0 1) oLin 1 (pLin 0 0 1) eLin (fun _ => luLin) true 0 1 luLin 0
      Fin.elim0 (fun _ => 0) (fun _ => 0)) (Sum.elim Fin.elim0 (fun _ => 4)) (fun _ => 0) (Sum.inr 0) = 4 := by
  refine ⟨⟨by decide +kernel, by decide +kernel, by decide +kernel, by decide +kernel⟩,
    ⟨fun _ _ _ => rfl, rfl⟩, by decide +kernel, by decide +kernel⟩

/-- **C66 fails when `sens_forw` was off during precompute**: later calls return the initial state -/
theorem C66_no_sens_false :
    endState (d := dLin) Fin.elim0 (fun _ => 4) (simulate dLin (mLin (-1) 2 0) oLin 1 (pLin (-1) 2 0) eLin
      (fun _ => luLin) false (fun _ => 3) 1 true luLin 0 Fin.elim0 (fun _ => 4)) (Sum.inr 0) = 5 ∧
    linearX dLin (storedForw dLin (mLin (-1) 2 0) oLin 1 (pLin (-1) 2 0) eLin (fun _ => luLin) false 0 1
      luLin 0 Fin.elim0 (fun _ => 0) (fun _ => 0)) (Sum.elim Fin.elim0 (fun _ => 4)) (fun _ => 3)
      (Sum.inr 0) = 4 := by
  refine ⟨by decide +kernel, by decide +kernel⟩

/-- **C66 fails for a seed that is not the identity**: the control block of the result depends on what
the result buffer held before, and is wrong when it was zero -/
theorem C66_seed_false :
    let F := storedForw dLin (mLin (-1) 2 0) oLin 1 (pLin (-1) 2 0) eLin (fun _ => luLin) true 0 1
      luLin 0 Fin.elim0 (fun _ => 0) (fun _ => 0)
    let seed : Forw dLin ℚ := ⟨1, 0⟩
    (forwLoop dLin (mLin (-1) 2 0) oLin 1 (pLin (-1) 2 0) eLin (fun _ => luLin) (fun _ => 3) 0 false
      Fin.elim0 (simulate dLin (mLin (-1) 2 0) oLin 1 (pLin (-1) 2 0) eLin (fun _ => luLin) true (fun _ => 3)
        1 true luLin 0 Fin.elim0 (fun _ => 4)) seed).u (Sum.inr 0) 0 = 1 ∧
    (linearForw dLin F false seed ⟨0, 0⟩).u (Sum.inr 0) 0 = 0 ∧
    (linearForw dLin F false seed ⟨0, fun _ _ => 7⟩).u (Sum.inr 0) 0 = 7 := by
  decide +kernel

/-- **C66 fails for adjoint seeds with a control part**: the shortcut forgets it -/
theorem C66_adj_seed_false :
    let F := storedForw dLin (mLin (-1) 2 0) oLin 1 (pLin (-1) 2 0) eLin (fun _ => luLin) true 0 1
      luLin 0 Fin.elim0 (fun _ => 0) (fun _ => 0)
    let l : Adj dLin ℚ := ⟨Fin.elim0, fun _ => 1, fun _ => 10⟩
    (adjLoop dLin (mLin (-1) 2 0) oLin 1 (pLin (-1) 2 0) eLin (fun _ => luLin) (fun _ => 3) 0 0 0
      Fin.elim0 (simulate dLin (mLin (-1) 2 0) oLin 1 (pLin (-1) 2 0) eLin (fun _ => luLin) true (fun _ => 3)
        1 true luLin 0 Fin.elim0 (fun _ => 4)) l).u 0 = 11 ∧
    (linearAdj dLin F (Sum.elim l.x1 l.x2)).2 0 = 1 := by
  decide +kernel

/-- **C64 fails after a second precompute**: the control sensitivity of the linear output state keeps
what the first precompute stored and is twice the true value (here `x⁺ = (x + 2u) / 2`, so the derivative
is 1) -/
theorem C64_second_precompute_false :
    let p1 := pLin (-1) 2 0
    let p2 := precompute dLin (mLin (-1) 2 0) oLin 1 (fLin (-1) 2 0) ⟨0, p1.dK2_du, p1.dx2f_dx2, p1.dx2f_du⟩
    let s (u : ℚ) := step dLin (mLin (-1) 2 0) oLin 1 p2 eLin (fun _ => luLin) true luLin 0 Fin.elim0
      (fun _ => 4) (fun _ => u)
    (s 1).x2 0 - (s 0).x2 0 = 1 ∧
    (sensStep dLin (mLin (-1) 2 0) oLin 1 p1 eLin (fun _ => luLin) Fin.elim0 (fun _ => 0) (s 0) 0).x2u 0 0 = 1 ∧
    (sensStep dLin (mLin (-1) 2 0) oLin 1 p2 eLin (fun _ => luLin) Fin.elim0 (fun _ => 0) (s 0) 0).x2u 0 0 = 2 := by
  decide +kernel

/-- one stage, one nonlinear state with `x1' = φ(x1) + u`, one output state -/
abbrev dAdj : Dims := ⟨1, 1, 0, 1, 1, 1, 0, 1, 0⟩
def mAdj : Mdl ℚ where
  A := fun _ => 0
  B := fun _ => 1
  C := fun _ => 1
  E := fun _ => 1
  c := fun _ => 0
  L_x := fun _ => 1
  L_xdot := fun _ => 0
  L_z := fun _ => 0
  L_u := fun _ => 0
  A_LO := fun _ => 0
  B_LO := fun _ => 1
  E_LO := fun _ => 1
  c_LO := fun _ => 0
  nontrivial_f_LO := false
def oAdj : Opts ℚ := ⟨fun _ => 0, fun _ => 1, 1, 0, false⟩
def fAdj : Facts dAdj ℚ := ⟨⟨1, 1, 1, 1, 1⟩, ⟨1, 1, 1, 1, 1⟩, ⟨1, 1, 1, 1, 1⟩, ⟨1, 1, 1, 1, 1⟩⟩
def eAdj : Ext dAdj ℚ := ⟨fun y _ _ => 2 * y 0, fun _ _ _ _ => 2, fun _ _ => 0, fun _ _ _ _ => 0,
  fun _ _ _ _ => 0, fun _ _ _ _ => 0, fun _ _ _ _ => 0, fun _ _ _ _ => 0⟩

/-- **C65 fails with a dirty workspace**: with trivial `f_LO` the block `dK2_dvv` is never written; when it
holds a nonzero number the output state, which does not depend on `x1`, contributes to the adjoint of
`x1` -/
theorem C65_stale_false :
    let p := precompute dAdj mAdj oAdj 1 fAdj ⟨0, 0, 0, 0⟩
    let lu : Lu (VV dAdj) ℚ := ⟨1, 1, 1, 1, 1⟩
    let s := step dAdj mAdj oAdj 1 p eAdj (fun _ => lu) true lu 0 (fun _ => 1) (fun _ => 1) (fun _ => 1)
    let l : Adj dAdj ℚ := ⟨0, fun _ => 1, 0⟩
    Exact dAdj mAdj oAdj 1 fAdj ∧
    IsLu (Jrvv dAdj mAdj p eAdj (fun _ => 1) (fun _ => 1) s.v) lu ∧
    (sensStep dAdj mAdj oAdj 1 p eAdj (fun _ => lu) (fun _ => 1) (fun _ => 1) s 0).x2x1 0 0 = 0 ∧
    (adjStep dAdj mAdj oAdj 1 p eAdj (fun _ => lu) (fun _ => 1) (fun _ => 1) s 0 0 0 l).x1 0 = 0 ∧
    (adjStep dAdj mAdj oAdj 1 p eAdj (fun _ => lu) (fun _ => 1) (fun _ => 1) s 0 (fun _ _ => 1) 0 l).x1 0 = 2 := by
  refine ⟨⟨by decide +kernel, by decide +kernel, by decide +kernel, by decide +kernel⟩, by decide +kernel,
    by decide +kernel, by decide +kernel, by decide +kernel⟩

/-- hypotheses of `C63_step_ode`: an ordinary differential equation with nonlinear part -/
example : dAdj.nz1 = 0 ∧ Exact dAdj mAdj oAdj 1 fAdj ∧
    (step dAdj mAdj oAdj 1 (precompute dAdj mAdj oAdj 1 fAdj ⟨0, 0, 0, 0⟩) eAdj (fun _ => ⟨1, 1, 1, 1, 1⟩)
      true ⟨1, 1, 1, 1, 1⟩ 0 (fun _ => 1) (fun _ => 1) (fun _ => 1)).x1 0 = 4 := by
  refine ⟨rfl, ⟨by decide +kernel, by decide +kernel, by decide +kernel, by decide +kernel⟩,
    by decide +kernel⟩
end examples
end Acados.Gnsf
