import Verif.Props.Irk
import Verif.Lemmas.IrkHess
/-!
# C70: Hessian of the implicit Runge-Kutta integrator
-/
namespace Acados.Irk
open Matrix
open Acados.Gnsf (Lu IsLu solveV solveM solveT)
set_option linter.unusedSectionVars false
variable {K : Type*} [Field K] [LinearOrder K] {d : Dims}

section Hess
variable (o : Opts K) (h t0 : K) (e : Ext d K) (u : Fin d.nu → K)
variable (g : Matrix (Fin (nK d)) (Fin (nK d)) K → Lu (Fin (nK d)) K)

/-- what the generated Hessian function returns: the combination of the (symmetric) second derivatives of
the components of `f` with the given multipliers -/
structure HessOk (f2 : Second d K) : Prop where
  comb : ∀ x k z t lam, e.hess x k u z lam t = ∑ r, lam r • f2 x k u z t r
  symm : ∀ x k z t r, (f2 x k u z t r)ᵀ = f2 x k u z t r

/-- symmetric contribution of one step -/
def stepQ (F : Fin d.s → Matrix (Fin (2 * d.nx + d.nz + d.nu)) (Fin (2 * d.nx + d.nz + d.nu)) K)
    (D : Fin d.s → Matrix (Fin (2 * d.nx + d.nz + d.nu)) (Fin (d.nx + d.nu)) K) :
    Matrix (Fin (d.nx + d.nu)) (Fin (d.nx + d.nu)) K := ∑ i, (D i)ᵀ * (F i * D i)

theorem hessStep_upper (ss : Nat) (s : StepOut d K)
    (l : Fin (d.nx + d.nu) → K) (D : Matrix (Fin (nK d)) (Fin (d.nx + d.nu)) K)
    (S : Matrix (Fin d.nx) (Fin (d.nx + d.nu)) K)
    (w : Matrix (Fin (2 * d.nx + d.nz + d.nu)) (Fin (d.nx + d.nu)) K)
    (H : Matrix (Fin (d.nx + d.nu)) (Fin (d.nx + d.nu)) K) (a b : Fin (d.nx + d.nu)) (hab : a.val ≤ b.val) :
    hessStep d o h t0 e u g ss s l D S w H a b = H a b + stepQ
      (fun i : Fin d.s => atStage o h u (ptOf d ss h t0 s.x0 s.k) i
        (fun x k u' z t => e.hess x k u' z (rB d (lamK d o h t0 e u g ss s l) i) t))
      (fun i => dxkzu d o h D S i w) a b := by
  have key : ∀ n, n ≤ d.s → loop n (fun ii H => hessStage d
    (e.hess (xt d o h s.x0 s.k ii) (kin d s.k ii) u (zin d s.k ii) (lamin d (lamK d o h t0 e u g ss s l) ii)
      (tcur o h t0 ss ii))
    (dxkzu d o h D S ii w) H) H a b = H a b + ∑ ii ∈ Finset.range n, ((dxkzu d o h D S ii w)ᵀ *
      (e.hess (xt d o h s.x0 s.k ii) (kin d s.k ii) u (zin d s.k ii) (lamin d (lamK d o h t0 e u g ss s l) ii)
        (tcur o h t0 ss ii) * dxkzu d o h D S ii w)) a b := by
    intro n
    induction n with
    | zero => intro _; simp [loop_zero]
    | succ n ih =>
      intro hn
      rw [loop_succ, hessStage_upper _ (fun r c hr => dxkzu_u o h D S n w r c hr) _ a b hab, ih (by omega),
        Finset.sum_range_succ, add_assoc]
  simp only [hessStep, stepQ]
  rw [key d.s le_rfl, Matrix.sum_apply, Finset.sum_range]
  congr 1
  refine Finset.sum_congr rfl fun i _ => ?_
  have := at_eq o h t0 u ss s.x0 s.k i
    (fun x k u' z t => e.hess x k u' z (lamin d (lamK d o h t0 e u g ss s l) i) t)
  rw [this]
  rfl

theorem stepQ_symm (F : Fin d.s → Matrix (Fin (2 * d.nx + d.nz + d.nu)) (Fin (2 * d.nx + d.nz + d.nu)) K)
    (D : Fin d.s → Matrix (Fin (2 * d.nx + d.nz + d.nu)) (Fin (d.nx + d.nu)) K)
    (hF : ∀ i, (F i)ᵀ = F i) : (stepQ F D)ᵀ = stepQ F D := by
  simp only [stepQ, Matrix.transpose_sum]
  refine Finset.sum_congr rfl fun i _ => ?_
  rw [Matrix.transpose_mul, Matrix.transpose_mul, Matrix.transpose_transpose, hF, Matrix.mul_assoc]

/-- one step of the second-order identity -/
theorem second_step (hg : ExactLu g) {f2 : Second d K} (hf : HessOk e u f2)
    (w : Matrix (Fin (nK d)) (Fin (d.nx + d.nu)) K)
    (w2 : Matrix (Fin (2 * d.nx + d.nz + d.nu)) (Fin (d.nx + d.nu)) K)
    (ss : Nat) (ident : Bool) (s : StepOut d K) (hr : Regular o h e u (ptOf d ss h t0 s.x0 s.k)) (l p q : Fin (d.nx + d.nu) → K)
    (S : Matrix (Fin d.nx) (Fin (d.nx + d.nu)) K) (hid : ident = true → S = idSeed d K)
    {δ2 σ2 σp σq : Fin d.nx → K} {kp kq k2 : Fin d.s → Fin d.nx → K} {zp zq z2 : Fin d.s → Fin d.nz → K}
    (hp : LinStep o h e u (ptOf d ss h t0 s.x0 s.k) 0 (S *ᵥ p) (sndP p) kp zp σp)
    (hq : LinStep o h e u (ptOf d ss h t0 s.x0 s.k) 0 (S *ᵥ q) (sndP q) kq zq σq)
    (h2 : LinStep o h e u (ptOf d ss h t0 s.x0 s.k)
        (fun i => bil (atStage o h u (ptOf d ss h t0 s.x0 s.k) i f2)
          (cat4 (stageOf o h (S *ᵥ p) kp i) (kp i) (zp i) (sndP p))
          (cat4 (stageOf o h (S *ᵥ q) kq i) (kq i) (zq i) (sndP q)))
        δ2 0 k2 z2 σ2) :
    p ⬝ᵥ (stepQ (fun i : Fin d.s => atStage o h u (ptOf d ss h t0 s.x0 s.k) i
        (fun x k u' z t => e.hess x k u' z (rB d (lamK d o h t0 e u g ss s l) i) t))
      (fun i => dxkzu d o h (dKdxu d o h t0 e u g ss ident s.x0 s.k w S) S i w2) *ᵥ q)
      = fstP l ⬝ᵥ σ2 - fstP (adjStep d o h t0 e u g w ss s l) ⬝ᵥ δ2
    ∧ σp = forwNext d o h (dKdxu d o h t0 e u g ss ident s.x0 s.k w S) S *ᵥ p
    ∧ σq = forwNext d o h (dKdxu d o h t0 e u g ss ident s.x0 s.k w S) S *ᵥ q := by
  set P := ptOf d ss h t0 s.x0 s.k with hP
  set D := dKdxu d o h t0 e u g ss ident s.x0 s.k w S with hD
  -- the first-order tangents are those of the code
  have uniq : ∀ v (kv : Fin d.s → Fin d.nx → K) (zv : Fin d.s → Fin d.nz → K) σ,
      LinStep o h e u P 0 (S *ᵥ v) (sndP v) kv zv σ →
      kv = kB d (-(D *ᵥ v)) ∧ zv = zB d (-(D *ᵥ v)) ∧ σ = forwNext d o h D S *ᵥ v := by
    intro v kv zv σ hv
    have h1 : kv - kB d (-(D *ᵥ v)) = 0 ∧ zv - zB d (-(D *ᵥ v)) = 0 := by
      refine hr _ _ (fun i => ?_)
      rw [tangent_sub o h e u P (S *ᵥ v) (sndP v)]
      have a := hv.eqs i
      have b := dKdxu_lin o h t0 e u g hg ss ident s.x0 s.k hr w S hid v i
      rw [Pi.zero_apply, add_zero] at a
      rw [a]
      rw [b, sub_zero]
    have hk := sub_eq_zero.mp h1.1
    refine ⟨hk, sub_eq_zero.mp h1.2, ?_⟩
    rw [hv.next, hk, forwNext_mulVec]
  obtain ⟨hkp, hzp, hσp⟩ := uniq p kp zp σp hp
  obtain ⟨hkq, hzq, hσq⟩ := uniq q kq zq σq hq
  refine ⟨?_, hσp, hσq⟩
  set lk := lamK d o h t0 e u g ss s l with hlk
  set B : Fin d.s → Fin (d.nx + d.nz) → K := fun i => bil (atStage o h u P i f2)
          (cat4 (stageOf o h (S *ᵥ p) kp i) (kp i) (zp i) (sndP p))
          (cat4 (stageOf o h (S *ᵥ q) kq i) (kq i) (zq i) (sndP q)) with hB
  -- quadratic form of the step
  have hform : p ⬝ᵥ (stepQ (fun i : Fin d.s => atStage o h u P i
        (fun x k u' z t => e.hess x k u' z (rB d lk i) t))
      (fun i => dxkzu d o h D S i w2) *ᵥ q) = ∑ i : Fin d.s, rB d lk i ⬝ᵥ B i := by
    simp only [stepQ]
    rw [Matrix.sum_mulVec, dotProduct_sum]
    refine Finset.sum_congr rfl fun i _ => ?_
    have hc : atStage o h u P i (fun x k u' z t => e.hess x k u' z (rB d lk i) t)
        = ∑ r, rB d lk i r • atStage o h u P i f2 r := hf.comb _ _ _ _ _
    have hq1 : p ⬝ᵥ (((dxkzu d o h D S i w2)ᵀ * (atStage o h u P i (fun x k u' z t => e.hess x k u' z (rB d lk i) t)
        * dxkzu d o h D S i w2)) *ᵥ q)
        = (dxkzu d o h D S i w2 *ᵥ p) ⬝ᵥ (atStage o h u P i (fun x k u' z t => e.hess x k u' z (rB d lk i) t)
          *ᵥ (dxkzu d o h D S i w2 *ᵥ q)) := by
      rw [← Matrix.mulVec_mulVec, ← Matrix.mulVec_mulVec, dotProduct_comm, tdot', dotProduct_comm]
    rw [hq1, dxkzu_mulVec, dxkzu_mulVec, ← hkp, ← hzp, ← hkq, ← hzq, hc, Matrix.sum_mulVec, dotProduct_sum]
    change _ = ∑ r, rB d lk i r * B i r
    refine Finset.sum_congr rfl fun r _ => ?_
    rw [Matrix.smul_mulVec, dotProduct_smul, smul_eq_mul]
    rfl
  refine hform.trans ?_
  -- the adjoint side
  have split : ∀ a b : Fin (d.nx + d.nu) → K, a ⬝ᵥ b = fstP a ⬝ᵥ fstP b + sndP a ⬝ᵥ sndP b := by
    intro a b; simp only [dotProduct, Fin.sum_univ_add]; rfl
  have hfst : ∀ a : Fin (d.nx + d.nu) → K, a ⬝ᵥ cat2 δ2 (0 : Fin d.nu → K) = fstP a ⬝ᵥ δ2 := by
    intro a; rw [split, fst_cat2, snd_cat2, dotProduct_zero, add_zero]
  set Bv : Fin (nK d) → K := dGdxu d o h t0 e u ss s.x0 s.k w *ᵥ cat2 δ2 (0 : Fin d.nu → K)
      + dGdK d o h t0 e u ss s.x0 s.k *ᵥ join d k2 z2 with hBv
  have hBlk : ∀ i : Fin d.s, rB d Bv i = - B i := by
    intro i
    have := h2.eqs i
    rw [tangent_split, Matrix.mulVec_zero, add_zero] at this
    have e0 : rB d Bv i = rB d (dGdxu d o h t0 e u ss s.x0 s.k w *ᵥ cat2 δ2 (0 : Fin d.nu → K)) i
        + rB d (dGdK d o h t0 e u ss s.x0 s.k *ᵥ join d k2 z2) i := blk_add _ _ _ _
    have e1 := dGdxu_mulVec o h t0 e u ss s.x0 s.k w (cat2 δ2 (0 : Fin d.nu → K)) i
    have e2 := dGdK_mulVec o h t0 e u ss s.x0 s.k (join d k2 z2) i
    rw [e0, e1, e2, fst_cat2, snd_cat2, kB_join, zB_join, Matrix.mulVec_zero, add_zero]
    exact eq_neg_of_add_eq_zero_left ((congrArg (· + B i) (add_comm _ _)).trans this)
  have hdot : lk ⬝ᵥ Bv = - ∑ i : Fin d.s, rB d lk i ⬝ᵥ B i := by
    rw [dot_rB, ← Finset.sum_neg_distrib]
    refine Finset.sum_congr rfl fun i _ => ?_
    rw [hBlk, dotProduct_neg]
  have hT : (dGdK d o h t0 e u ss s.x0 s.k)ᵀ *ᵥ lk
      = loop d.s (fun jj v => dveccpsc d.nx (-h * o.b_vec jj) l 0 v (jj * d.nx)) 0 := by
    simp only [hlk, lamK]
    exact Acados.Gnsf.mulVec_solveT (hg _ (dGdK_isUnit o h t0 e u hr)) _
  have hsum : (loop d.s (fun jj v => dveccpsc d.nx (-h * o.b_vec jj) l 0 v (jj * d.nx)) 0)
      ⬝ᵥ join d k2 z2 = - (h * ∑ j : Fin d.s, o.b_vec j.val * (fstP l ⬝ᵥ k2 j)) := by
    rw [dot_blocks, kB_join, zB_join]
    have hb := lam_blocks (d := d) (fun jj => -h * o.b_vec jj) l
    have h3 : (∑ i : Fin d.s, zB d (loop d.s (fun jj v => dveccpsc d.nx (-h * o.b_vec jj) l 0 v (jj * d.nx))
        0) i ⬝ᵥ z2 i) = 0 := Finset.sum_eq_zero fun i _ => by rw [(hb i).2, zero_dotProduct]
    rw [h3, add_zero, Finset.mul_sum, ← Finset.sum_neg_distrib]
    refine Finset.sum_congr rfl fun i _ => ?_
    rw [(hb i).1, smul_dotProduct, smul_eq_mul]; ring
  have hx : fstP l ⬝ᵥ nextOf o h δ2 k2
      = fstP l ⬝ᵥ δ2 + h * ∑ j : Fin d.s, o.b_vec j.val * (fstP l ⬝ᵥ k2 j) := by
    have : nextOf o h δ2 k2 = δ2 + h • ∑ j : Fin d.s, o.b_vec j.val • k2 j := by
      funext r
      simp only [nextOf, Pi.add_apply, Pi.smul_apply, Finset.sum_apply, smul_eq_mul]
    rw [this, dotProduct_add, dotProduct_smul, dotProduct_sum, smul_eq_mul]
    congr 2
    refine Finset.sum_congr rfl fun j _ => ?_
    rw [dotProduct_smul, smul_eq_mul]
  have hadj : fstP (adjStep d o h t0 e u g w ss s l) ⬝ᵥ δ2
      = fstP l ⬝ᵥ δ2 + lk ⬝ᵥ (dGdxu d o h t0 e u ss s.x0 s.k w *ᵥ cat2 δ2 (0 : Fin d.nu → K)) := by
    rw [← hfst, adjStep, add_dotProduct, hfst, tdot']
  have hBv2 : lk ⬝ᵥ (dGdxu d o h t0 e u ss s.x0 s.k w *ᵥ cat2 δ2 (0 : Fin d.nu → K))
      = lk ⬝ᵥ Bv - lk ⬝ᵥ (dGdK d o h t0 e u ss s.x0 s.k *ᵥ join d k2 z2) := by
    rw [hBv, dotProduct_add]; ring
  rw [hadj, hBv2, hdot, ← tdot', hT, hsum, h2.next, hx]
  ring

/-- the symmetric matrix whose upper triangle the backward sweep accumulates -/
def hessQ (w : Matrix (Fin (nK d)) (Fin (d.nx + d.nu)) K)
    (w2 : Matrix (Fin (2 * d.nx + d.nz + d.nu)) (Fin (d.nx + d.nu)) K) (ident : Bool) :
    Nat → List (StepOut d K) → Matrix (Fin d.nx) (Fin (d.nx + d.nu)) K → (Fin (d.nx + d.nu) → K) →
      Matrix (Fin (d.nx + d.nu)) (Fin (d.nx + d.nu)) K
  | _, [], _, _ => 0
  | ss, s :: rest, S, l =>
    hessQ w w2 ident (ss + 1) rest
      (forwNext d o h (dKdxu d o h t0 e u g ss (ident && ss == 0) s.x0 s.k w S) S) l
    + stepQ (fun i : Fin d.s => atStage o h u (ptOf d ss h t0 s.x0 s.k) i
        (fun x k u' z t => e.hess x k u' z (rB d (lamK d o h t0 e u g ss s
          (adjLoop d o h t0 e u g w (ss + 1) rest l)) i) t))
      (fun i => dxkzu d o h (dKdxu d o h t0 e u g ss (ident && ss == 0) s.x0 s.k w S) S i w2)

theorem hessLoop_fst (w : Matrix (Fin (nK d)) (Fin (d.nx + d.nu)) K)
    (w2 : Matrix (Fin (2 * d.nx + d.nz + d.nu)) (Fin (d.nx + d.nu)) K) (ident : Bool)
    (l : List (StepOut d K)) : ∀ ss S lam H,
    (hessLoop d o h t0 e u g w w2 ident ss l S lam H).1 = adjLoop d o h t0 e u g w ss l lam := by
  induction l with
  | nil => intro ss S lam H; rfl
  | cons s l ih => intro ss S lam H; simp only [hessLoop, adjLoop, ih]

theorem hessLoop_upper (w : Matrix (Fin (nK d)) (Fin (d.nx + d.nu)) K)
    (w2 : Matrix (Fin (2 * d.nx + d.nz + d.nu)) (Fin (d.nx + d.nu)) K) (ident : Bool)
    (l : List (StepOut d K)) : ∀ ss S lam (a b : Fin (d.nx + d.nu)), a.val ≤ b.val →
    (hessLoop d o h t0 e u g w w2 ident ss l S lam 0).2 a b = hessQ o h t0 e u g w w2 ident ss l S lam a b := by
  induction l with
  | nil => intro ss S lam a b _; rfl
  | cons s l ih =>
    intro ss S lam a b hab
    simp only [hessLoop, hessQ]
    rw [hessStep_upper o h t0 e u g ss s _ _ S w2 _ a b hab, ih _ _ _ a b hab, hessLoop_fst]
    rfl

theorem hessQ_symm {f2 : Second d K} (hf : HessOk e u f2) (w : Matrix (Fin (nK d)) (Fin (d.nx + d.nu)) K)
    (w2 : Matrix (Fin (2 * d.nx + d.nz + d.nu)) (Fin (d.nx + d.nu)) K) (ident : Bool)
    (l : List (StepOut d K)) : ∀ ss S lam,
    (hessQ o h t0 e u g w w2 ident ss l S lam)ᵀ = hessQ o h t0 e u g w w2 ident ss l S lam := by
  induction l with
  | nil => intro ss S lam; simp [hessQ]
  | cons s l ih =>
    intro ss S lam
    simp only [hessQ]
    rw [Matrix.transpose_add, ih, stepQ_symm]
    intro i
    have hc : ∀ lam, atStage o h u (ptOf d ss h t0 s.x0 s.k) i (fun x k u' z t => e.hess x k u' z lam t)
        = ∑ r, lam r • atStage o h u (ptOf d ss h t0 s.x0 s.k) i f2 r := fun lam => hf.comb _ _ _ _ _
    rw [hc, Matrix.transpose_sum]
    refine Finset.sum_congr rfl fun r _ => ?_
    rw [Matrix.transpose_smul]
    congr 1
    exact hf.symm _ _ _ _ _

theorem trtrU_eq {n : Nat} {H Q : Matrix (Fin n) (Fin n) K} (hu : ∀ a b : Fin n, a.val ≤ b.val → H a b = Q a b)
    (hs : Qᵀ = Q) : trtrU H = Q := by
  ext a b
  simp only [trtrU]
  by_cases hab : a.val ≤ b.val
  · rw [if_pos hab, hu a b hab]
  · rw [if_neg hab, hu b a (by omega)]
    exact congrFun (congrFun hs a) b

/-- **C70 (Hessian).**  For every list of steps, seed `S`, adjoint seed `λ` and directions `p`, `q`: the
returned Hessian satisfies `p · H q = λ_x · δ²x`, where `δ²x` is the second-order tangent of the final state
in the directions `p`, `q`, obtained by second-order propagation of the steps (`Lin2Run`).  The Hessian of the
model is assumed to be the symmetric combination of the second derivatives with the multipliers. -/
theorem C70_hessian (hg : ExactLu g) {f2 : Second d K} (hf : HessOk e u f2)
    (w : Matrix (Fin (nK d)) (Fin (d.nx + d.nu)) K)
    (w2 : Matrix (Fin (2 * d.nx + d.nz + d.nu)) (Fin (d.nx + d.nu)) K) (ident : Bool)
    (l : List (StepOut d K)) (hr : RegularAlong o h e u t0 l) (S : Matrix (Fin d.nx) (Fin (d.nx + d.nu)) K)
    (hid : ident = true → S = idSeed d K) (lam p q : Fin (d.nx + d.nu) → K) (τ : Fin d.nx → K)
    (hl : Lin2Run o h e f2 u (sndP p) (sndP q) t0 l (S *ᵥ p) (S *ᵥ q) 0 τ) :
    p ⬝ᵥ (trtrU (hessLoop d o h t0 e u g w w2 ident 0 l S lam 0).2 *ᵥ q) = fstP lam ⬝ᵥ τ := by
  rw [trtrU_eq (hessLoop_upper o h t0 e u g w w2 ident l 0 S lam) (hessQ_symm o h t0 e u g hf w w2 ident l 0 S lam)]
  have key : ∀ t l (δp δq δ2 τ : Fin d.nx → K), Lin2Run o h e f2 u (sndP p) (sndP q) t l δp δq δ2 τ →
      RegularAlong o h e u t l → ∀ (ss : Nat) (S : Matrix (Fin d.nx) (Fin (d.nx + d.nu)) K), t = t0 + (ss : K) * h → δp = S *ᵥ p →
      δq = S *ᵥ q → (ss = 0 → ident = true → S = idSeed d K) →
      p ⬝ᵥ (hessQ o h t0 e u g w w2 ident ss l S lam *ᵥ q)
        = fstP lam ⬝ᵥ τ - fstP (adjLoop d o h t0 e u g w ss l lam) ⬝ᵥ δ2 := by
    intro t l δp δq δ2 τ hrun
    induction hrun with
    | nil t δp δq δ2 =>
      intro _ ss S _ _ _ _
      simp only [hessQ, adjLoop, Matrix.zero_mulVec, dotProduct_zero, sub_self]
    | cons t s l δp δq δ2 kp zp σp kq zq σq k2 z2 σ2 τ hp hq h2 _ ih =>
      intro hr ss S ht hδp hδq hS
      subst hδp; subst hδq
      have hpt : s.pt t = ptOf d ss h t0 s.x0 s.k := by rw [ht]; rfl
      rw [hpt] at hp hq h2
      obtain ⟨h1, hσp, hσq⟩ := second_step o h t0 e u g hg hf w w2 ss (ident && ss == 0) s (hpt ▸ hr.1)
        (adjLoop d o h t0 e u g w (ss + 1) l lam) p q S
        (fun hh => by simp only [Bool.and_eq_true, beq_iff_eq] at hh; exact hS hh.2 hh.1) hp hq h2
      have h3 := ih hr.2 (ss + 1) _ (by rw [ht]; push_cast; ring) hσp hσq (fun h0 => by omega)
      rw [hessQ, Matrix.add_mulVec, dotProduct_add, h3]
      refine (congrArg (fun a => _ + a) h1).trans ?_
      exact sub_add_sub_cancel _ _ _
  have := key t0 l _ _ 0 τ hl hr 0 S (by simp) rfl rfl (fun _ => hid)
  rw [this, dotProduct_zero, sub_zero]

/-- **C70 (symmetry).**  The returned Hessian is symmetric. -/
theorem C70_symmetric {n : Nat} (H : Matrix (Fin n) (Fin n) K) : (trtrU H)ᵀ = trtrU H := by
  ext a b
  simp only [Matrix.transpose_apply, trtrU]
  by_cases h1 : a.val ≤ b.val
  · by_cases h2 : b.val ≤ a.val
    · rw [if_pos h1, if_pos h2]
      have : a = b := Fin.ext (by omega)
      rw [this]
    · rw [if_pos h1, if_neg h2]
  · rw [if_neg h1, if_pos (by omega)]

end Hess
/-! ### The hypotheses are met (the example of `Verif/Props/Irk.lean`) -/

theorem hessOkX (u : Fin 1 → ℚ) : HessOk eX u f2X where
  comb _ _ _ _ _ := rfl
  symm _ _ _ _ r := by
    ext a b
    simp only [f2X, Matrix.transpose_apply]
    congr 1
    exact propext ⟨fun ⟨h1, h2, h3⟩ => ⟨h1, h3, h2⟩, fun ⟨h1, h2, h3⟩ => ⟨h1, h3, h2⟩⟩

/-- the second-order tangent of one step in the direction `u`, `u`: `∂²x⁺/∂u² = 2` -/
theorem secondX (s : StepOut dX ℚ) : Lin2Run (d := dX) (oX false) (1 / 2) eX f2X ![1]
    ![1] ![1] 0 [s] 0 0 0 ![2] := by
  refine Lin2Run.cons _ _ _ _ _ _ ![![4]] ![![4]] ![2] ![![4]] ![![4]] ![2] ![![4]] ![![4]] ![2] _ ?_ ?_ ?_
    (Lin2Run.nil _ _ _ _)
  all_goals
    refine ⟨fun i => ?_, ?_⟩
    · rw [Subsingleton.elim i 0]
      funext r
      fin_cases r
      · simp [tangent, atStage, eX, dotProduct, Matrix.vecHead, Matrix.vecTail, bil, f2X, Matrix.mulVec]
      · simp [tangent, atStage, eX, stageOf, oX, dotProduct, Matrix.vecHead, Matrix.vecTail, bil, f2X, cat4,
          Matrix.mulVec, Fin.sum_univ_succ]
        try norm_num
    · funext r
      rw [Subsingleton.elim r 0]
      simp [nextOf, oX]; norm_num

/-- the Hessian of `λ' x⁺` along the control is `2 λ` -/
example (s : StepOut dX ℚ) (lam : Fin 2 → ℚ) :
    (![0, 1] : Fin 2 → ℚ) ⬝ᵥ (trtrU (hessLoop dX (oX false) (1 / 2) 0 eX ![1] gX 0 0 true 0 [s] (idSeed dX ℚ) lam
      0).2 *ᵥ ![0, 1]) = 2 * lam 0 := by
  have hz : idSeed dX ℚ *ᵥ ![0, 1] = 0 := by
    rw [idSeed_mulVec]; funext i; rw [Subsingleton.elim i 0]; rfl
  have h2 := secondX s
  have h1 : sndP (m := 1) (n := 1) (K := ℚ) ![0, 1] = ![1] := by funext i; rw [Subsingleton.elim i 0]; rfl
  have := C70_hessian (oX false) (1 / 2) 0 eX ![1] gX exactX (hessOkX _) 0 0 true [s]
    (regularAlongX false _ _ _)
    (idSeed dX ℚ) (fun _ => rfl) lam ![0, 1] ![0, 1] ![2] (by rw [hz, h1]; exact h2)
  refine this.trans ?_
  simp [dotProduct, fstP]; ring

end Acados.Irk
