import Verif.Props.Irk
import Verif.Lemmas.IrkHess
import Verif.Model.IrkCost
import Verif.Spec.IrkCost
/-!
# C72: cost propagation of the implicit Runge-Kutta integrator
-/
namespace Acados.Irk
open Matrix
open Acados.Gnsf (Lu)
set_option linter.unusedSectionVars false
variable {K : Type*} [Field K] [LinearOrder K] {d : Dims} {ny : Nat}

section Gen
variable (o : Opts K) (h t0 : K) (e : Ext d K) (u : Fin d.nu → K)

/-- the stage sensitivity is the tangent of the stage value -/
theorem sStage_mulVec (D : Matrix (Fin (nK d)) (Fin (d.nx + d.nu)) K) (S w : Matrix (Fin d.nx) (Fin (d.nx + d.nu)) K)
    (i : Fin d.s) (v : Fin (d.nx + d.nu) → K) :
    sStage d o h D S w i *ᵥ v = stageOf o h (S *ᵥ v) (kB d (-(D *ᵥ v))) i := by
  have hS : gecpsc d.nx (d.nx + d.nu) 1 S 0 0 w 0 0 = S := by
    ext r c
    rw [gecpsc_apply_in _ _ _ _ _ _ _ _ _ _ _ (by simp) (by simp), rd2_lt _ _ _ (by simp) (by simp)]
    simp
  simp only [sStage]
  rw [hS, forwNext_gen (fun jj => -(o.A_mat (i.val + d.s * jj) * h)) D S v d.s le_rfl]
  funext r
  simp only [stageOf, Pi.add_apply, Finset.sum_apply, Pi.smul_apply, smul_eq_mul]
  rw [Finset.sum_range, Finset.mul_sum]
  congr 1
  refine Finset.sum_congr rfl fun j _ => ?_
  have : kB d (-(D *ᵥ v)) j r = - blk d.nx (j.val * d.nx) (D *ᵥ v) r := by
    rw [← kB_blk]; rfl
  rw [this]; ring

/-- `J_y_tilde` is the derivative of the inner function with respect to `(u, x)` at the start -/
theorem jTilde_mulVec (Jt : Matrix (Fin (d.nu + d.nx)) (Fin ny) K) (Sst : Matrix (Fin d.nx) (Fin (d.nx + d.nu)) K)
    (w : Matrix (Fin ny) (Fin (d.nu + d.nx)) K) (v : Fin (d.nx + d.nu) → K) :
    jTilde d Jt Sst w *ᵥ ux v = inner Jt (Sst *ᵥ v) (sndP v) := by
  funext r
  have hu : ∀ c : Fin d.nu, jTilde d Jt Sst w r (Fin.castAdd d.nx c)
      = (∑ l : Fin d.nx, Jt (Fin.natAdd d.nu l) r * Sst l (Fin.natAdd d.nx c)) + Jt (Fin.castAdd d.nx c) r := by
    intro c
    have hc := c.isLt
    simp only [jTilde, Fin.val_castAdd, hc, if_true, Finset.sum_range]
    rw [if_neg (by omega), rd2_lt _ _ _ (by omega) r.isLt]
    refine congrArg₂ _ (Finset.sum_congr rfl fun l _ => ?_) rfl
    rw [rd2_lt _ _ _ (by omega) r.isLt, rd2_lt _ _ _ l.isLt (by omega)]
    rfl
  have hx : ∀ c : Fin d.nx, jTilde d Jt Sst w r (Fin.natAdd d.nu c)
      = ∑ l : Fin d.nx, Jt (Fin.natAdd d.nu l) r * Sst l (Fin.castAdd d.nu c) := by
    intro c
    have hc := c.isLt
    simp only [jTilde, Fin.val_natAdd, Finset.sum_range]
    rw [if_pos (by omega)]
    refine Finset.sum_congr rfl fun l _ => ?_
    rw [rd2_lt _ _ _ (by omega) r.isLt, rd2_lt _ _ _ l.isLt (by omega)]
    congr 2
    apply Fin.ext; simp
  simp only [inner, ux, mulVec, dotProduct, Fin.sum_univ_add, Fin.append_left, Fin.append_right, hu, hx,
    transpose_apply, add_mul, Finset.sum_add_distrib, Finset.sum_mul, Finset.mul_sum, mul_add, fstP, sndP]
  have a1 : ∀ (m : Nat) (f : Fin m → Fin d.nx → K), ∑ x, ∑ y, f x y = ∑ y, ∑ x, f x y := fun m f => Finset.sum_comm
  rw [a1 d.nu (fun x i => Jt (Fin.natAdd d.nu i) r * Sst i (Fin.natAdd d.nx x) * v (Fin.natAdd d.nx x)),
    a1 d.nx (fun x i => Jt (Fin.natAdd d.nu i) r * Sst i (Fin.castAdd d.nu x) * v (Fin.castAdd d.nu x))]
  simp only [mul_assoc]
  ring

/-- quadrature: a functional of the accumulators to which every stage adds `b φ` -/
theorem costLoop_val (g : Matrix (Fin (nK d)) (Fin (nK d)) K → Lu (Fin (nK d)) K)
    (stage : (Fin d.nx → K) → K → Matrix (Fin d.nx) (Fin (d.nx + d.nu)) K → K → Acc d K → Acc d K)
    (F : Acc d K → K) (φ : (Fin d.nx → K) → K → K)
    (hF : ∀ x t S b a, F (stage x t S b a) = F a + b * φ x t) (w w2) (ident : Bool) (l : List (StepOut d K)) :
    ∀ (ss : Nat) S a, F (costLoop d o h t0 e u g stage w w2 ident ss l S a)
      = F a + quadrature o h φ (t0 + (ss : K) * h) l := by
  induction l with
  | nil => intro ss S a; simp [costLoop, quadrature]
  | cons s l ih =>
    intro ss S a
    have ht : t0 + (ss : K) * h + h = t0 + ((ss + 1 : Nat) : K) * h := by push_cast; ring
    simp only [costLoop, quadrature]
    rw [ih, ht, ← add_assoc]
    congr 1
    simp only [costStep]
    generalize dKdxu d o h t0 e u g ss (ident && ss == 0) s.x0 s.k w S = D
    have key : ∀ n, F (loop n (fun ii a => stage (xt d o h s.x0 s.k ii) (tcur o h t0 ss ii)
        (sStage d o h D S w2 ii) (o.b_vec ii) a) a)
        = F a + ∑ i ∈ Finset.range n, o.b_vec i * φ (xt d o h s.x0 s.k i) (tcur o h t0 ss i) := by
      intro n
      induction n with
      | zero => simp [loop_zero]
      | succ n ihn => rw [loop_succ, hF, ihn, Finset.sum_range_succ, add_assoc]
    rw [key, Finset.sum_range]
    refine congrArg _ (Finset.sum_congr rfl fun i _ => ?_)
    rw [xt_eq]; rfl

/-- quadrature of derivatives: a functional of the accumulators to which every stage adds `b B(S v, S w)` -/
theorem costLoop_lin (g : Matrix (Fin (nK d)) (Fin (nK d)) K → Lu (Fin (nK d)) K) (hg : ExactLu g)
    (stage : (Fin d.nx → K) → K → Matrix (Fin d.nx) (Fin (d.nx + d.nu)) K → K → Acc d K → Acc d K)
    (F : Acc d K → K) (B : (Fin d.nx → K) → K → (Fin d.nx → K) → (Fin d.nx → K) → K)
    (p q : Fin (d.nx + d.nu) → K)
    (hF : ∀ x t S b a, F (stage x t S b a) = F a + b * B x t (S *ᵥ p) (S *ᵥ q)) (w w2) (ident : Bool)
    (l : List (StepOut d K)) :
    ∀ (ss : Nat) S a, RegularAlong o h e u (t0 + (ss : K) * h) l → (ss = 0 → ident = true → S = idSeed d K) →
      ∃ c, LinQuadrature o h e u B (sndP p) (sndP q) (t0 + (ss : K) * h) l (S *ᵥ p) (S *ᵥ q) c ∧
        F (costLoop d o h t0 e u g stage w w2 ident ss l S a) = F a + c := by
  induction l with
  | nil => intro ss S a _ _; exact ⟨0, LinQuadrature.nil _ _ _, by simp [costLoop]⟩
  | cons s l ih =>
    intro ss S a hr hS
    have ht : t0 + (ss : K) * h + h = t0 + ((ss + 1 : Nat) : K) * h := by push_cast; ring
    have hid : (ident && ss == 0) = true → S = idSeed d K :=
      fun hh => by simp only [Bool.and_eq_true, beq_iff_eq] at hh; exact hS hh.2 hh.1
    have hlin := dKdxu_lin o h t0 e u g hg ss _ s.x0 s.k hr.1 w S hid
    simp only [costLoop]
    generalize dKdxu d o h t0 e u g ss (ident && ss == 0) s.x0 s.k w S = D at hlin
    obtain ⟨c, hc, hv⟩ := ih (ss + 1) (forwNext d o h D S)
      (costStep d o h t0 stage ss s D S w2 a) (ht ▸ hr.2) (fun h0 => by omega)
    refine ⟨_, LinQuadrature.cons _ _ _ _ _ _ _ _ _ _ _ c
      ⟨fun i => by rw [Pi.zero_apply, add_zero]; exact hlin p i, forwNext_mulVec o h D S p⟩
      ⟨fun i => by rw [Pi.zero_apply, add_zero]; exact hlin q i, forwNext_mulVec o h D S q⟩
      (by rw [ht]; exact hc), ?_⟩
    rw [hv, ← add_assoc]
    congr 1
    simp only [costStep]
    have key : ∀ n, F (loop n (fun ii a => stage (xt d o h s.x0 s.k ii) (tcur o h t0 ss ii)
        (sStage d o h D S w2 ii) (o.b_vec ii) a) a)
        = F a + ∑ i ∈ Finset.range n, o.b_vec i * B (xt d o h s.x0 s.k i) (tcur o h t0 ss i)
          (sStage d o h D S w2 i *ᵥ p) (sStage d o h D S w2 i *ᵥ q) := by
      intro n
      induction n with
      | zero => simp [loop_zero]
      | succ n ihn => rw [loop_succ, hF, ihn, Finset.sum_range_succ, add_assoc]
    rw [key, Finset.sum_range]
    refine congrArg _ (Finset.sum_congr rfl fun i _ => ?_)
    rw [xt_eq, sStage_mulVec, sStage_mulVec]; rfl

theorem quadrature_smul (α : K) (φ : (Fin d.nx → K) → K → K) (l : List (StepOut d K)) (t : K) :
    quadrature o h (fun x t => α * φ x t) t l = α * quadrature o h φ t l := by
  induction l generalizing t with
  | nil => simp [quadrature]
  | cons s l ih =>
    simp only [quadrature]
    rw [ih, mul_add, Finset.mul_sum]
    exact congrArg₂ _ (Finset.sum_congr rfl fun i _ => by ring) rfl

theorem linQuadrature_smul {B : (Fin d.nx → K) → K → (Fin d.nx → K) → (Fin d.nx → K) → K} {δup δuq : Fin d.nu → K}
    (α : K) {t : K} {l : List (StepOut d K)} {δp δq : Fin d.nx → K} {c : K}
    (hc : LinQuadrature o h e u (fun x t a b => α * B x t a b) δup δuq t l δp δq c) :
    ∃ c', LinQuadrature o h e u B δup δuq t l δp δq c' ∧ c = α * c' := by
  induction hc with
  | nil => exact ⟨0, LinQuadrature.nil _ _ _, by simp⟩
  | cons t s l δp δq kp zp σp kq zq σq c h1 h2 _ ih =>
    obtain ⟨c', h3, rfl⟩ := ih
    refine ⟨_, LinQuadrature.cons _ _ _ _ _ _ _ _ _ _ _ c' h1 h2 h3, ?_⟩
    rw [mul_add, Finset.mul_sum]
    exact congrArg₂ _ (Finset.sum_congr rfl fun i _ => by ring) rfl

theorem linStep_unique {P : Pt d K} (hr : Regular o h e u P) {gg : Fin d.s → Fin (d.nx + d.nz) → K}
    {δx : Fin d.nx → K} {δu : Fin d.nu → K} {k k' : Fin d.s → Fin d.nx → K} {z z' : Fin d.s → Fin d.nz → K}
    {σ σ' : Fin d.nx → K} (h1 : LinStep o h e u P gg δx δu k z σ) (h2 : LinStep o h e u P gg δx δu k' z' σ') :
    k = k' ∧ σ = σ' := by
  have hk : k - k' = 0 ∧ z - z' = 0 := by
    refine hr _ _ (fun i => ?_)
    rw [tangent_sub o h e u P δx δu]
    rw [← add_right_cancel ((h1.eqs i).trans (h2.eqs i).symm)]; simp
  have := sub_eq_zero.mp hk.1
  exact ⟨this, by rw [h1.next, h2.next, this]⟩

/-- **C72 (well-defined).**  The quadrature of derivatives is determined by the steps and the directions. -/
theorem C72_unique (B : (Fin d.nx → K) → K → (Fin d.nx → K) → (Fin d.nx → K) → K) (δup δuq : Fin d.nu → K)
    (t : K) (l : List (StepOut d K)) (hr : RegularAlong o h e u t l) (δp δq : Fin d.nx → K) (c c' : K)
    (h1 : LinQuadrature o h e u B δup δuq t l δp δq c) (h2 : LinQuadrature o h e u B δup δuq t l δp δq c') :
    c = c' := by
  induction h1 generalizing c' with
  | nil => cases h2; rfl
  | cons t s l δp δq kp zp σp kq zq σq c hp hq _ ih =>
    cases h2 with
    | cons _ _ _ _ _ kp' zp' σp' kq' zq' σq' c'' hp' hq' hc' =>
      obtain ⟨rfl, rfl⟩ := linStep_unique o h e u hr.1 hp hp'
      obtain ⟨rfl, rfl⟩ := linStep_unique o h e u hr.1 hq hq'
      rw [ih hr.2 _ hc']

end Gen

theorem dot_tr {m n : Nat} (J : Matrix (Fin m) (Fin n) K) (y : Fin m → K) (v : Fin n → K) :
    (Jᵀ *ᵥ y) ⬝ᵥ v = y ⬝ᵥ (J *ᵥ v) := by
  rw [Matrix.mulVec_transpose, Matrix.dotProduct_mulVec]

theorem dot_tr' {m n : Nat} (J : Matrix (Fin m) (Fin n) K) (y : Fin m → K) (v : Fin n → K) :
    v ⬝ᵥ (Jᵀ *ᵥ y) = (J *ᵥ v) ⬝ᵥ y := by
  rw [dotProduct_comm, dot_tr, dotProduct_comm]

/-- the factor of the weight the code multiplies with -/
def Nls.factor (c : Nls d ny K) : Matrix (Fin ny) (Fin ny) K :=
  if c.isDiag then Matrix.diagonal c.wdiag else low c.wchol

section Nls
variable (o : Opts K) (h t0 : K) (e : Ext d K) (u : Fin d.nu → K) (N : Nat) (c : Nls d ny K) (scale : K)
variable (g : Matrix (Fin (nK d)) (Fin (nK d)) K → Lu (Fin (nK d)) K)

/-- what the cost module stores about the weight `W` -/
def WeightOk (c : Nls d ny K) (W : Matrix (Fin ny) (Fin ny) K) : Prop :=
  (c.isDiag = true → W = Matrix.diagonal fun i => c.wdiag i * c.wdiag i) ∧
  (c.isDiag = false → W = low c.wchol * (low c.wchol)ᵀ)

theorem weight_factor {c : Nls d ny K} {W} (hW : WeightOk c W) : W = c.factor * c.factorᵀ := by
  cases hd : c.isDiag with
  | true => rw [hW.1 hd]; simp [Nls.factor, hd]
  | false => rw [hW.2 hd]; simp [Nls.factor, hd]

/-- residual -/
abbrev Nls.res (c : Nls d ny K) (u : Fin d.nu → K) (x : Fin d.nx → K) (t : K) : Fin ny → K := c.y x u t - c.yref

theorem nlsStage_eq (x t S w b a) : nlsStage d u N c scale x t S w b a =
    ⟨a.val + 1 / 2 * b / (N : K) * ((c.factor *ᵥ c.res u x t) ⬝ᵥ (c.factor *ᵥ c.res u x t)),
      a.grad + (scale * b / (N : K)) • (((jTilde d (c.jt x u t) S w)ᵀ * c.factor) *ᵥ (c.factor *ᵥ c.res u x t)),
      a.hess + (b / (N : K)) • (((jTilde d (c.jt x u t) S w)ᵀ * c.factor) *
        ((jTilde d (c.jt x u t) S w)ᵀ * c.factor)ᵀ)⟩ := by
  have hr : c.y x u t + (-1 : K) • c.yref = c.res u x t := by rw [neg_one_smul, ← sub_eq_add_neg]
  have hy : (if c.isDiag then (fun i => c.wdiag i * c.res u x t i) else low c.wchol *ᵥ c.res u x t)
      = c.factor *ᵥ c.res u x t := by
    cases hd : c.isDiag with
    | true => funext i; simp [Nls.factor, hd, Matrix.mulVec_diagonal]
    | false => simp [Nls.factor, hd]
  have hJ : (if c.isDiag then (jTilde d (c.jt x u t) S w)ᵀ * Matrix.diagonal c.wdiag
      else (jTilde d (c.jt x u t) S w)ᵀ * low c.wchol) = (jTilde d (c.jt x u t) S w)ᵀ * c.factor := by
    cases hd : c.isDiag <;> simp [Nls.factor, hd]
  simp only [nlsStage]
  rw [hr, hy, hJ]

theorem nls_grad (x t S w b a) (p : Fin (d.nx + d.nu) → K) :
    (nlsStage d u N c scale x t S w b a).grad ⬝ᵥ ux p = a.grad ⬝ᵥ ux p + b * (scale / (N : K) *
      ((c.factor *ᵥ (c.factor *ᵥ c.res u x t)) ⬝ᵥ inner (c.jt x u t) (S *ᵥ p) (sndP p))) := by
  rw [nlsStage_eq]
  simp only [add_dotProduct, smul_dotProduct, smul_eq_mul]
  rw [← Matrix.mulVec_mulVec, dot_tr, jTilde_mulVec]
  ring

theorem nls_hess (x t S w b a) (p q : Fin (d.nx + d.nu) → K) :
    ux p ⬝ᵥ ((nlsStage d u N c scale x t S w b a).hess *ᵥ ux q) = ux p ⬝ᵥ (a.hess *ᵥ ux q) + b * (1 / (N : K) *
      (inner (c.jt x u t) (S *ᵥ p) (sndP p) ⬝ᵥ ((c.factor * c.factorᵀ) *ᵥ
        inner (c.jt x u t) (S *ᵥ q) (sndP q)))) := by
  rw [nlsStage_eq]
  simp only [Matrix.add_mulVec, dotProduct_add, Matrix.smul_mulVec, dotProduct_smul, smul_eq_mul]
  rw [Matrix.transpose_mul, Matrix.transpose_transpose, Matrix.mul_assoc, ← Matrix.mul_assoc c.factor,
    ← Matrix.mulVec_mulVec, ← Matrix.mulVec_mulVec, jTilde_mulVec, dot_tr', jTilde_mulVec]
  ring

/-- **C72 (least squares, value).**  The propagated cost is the Runge-Kutta quadrature over the integration
interval (normalised to length one) of `½ ‖r‖²_W`, times the scaling, if the weight is diagonal.  The missing
part is refuted by `C72_full_weight_false`: with a full weight the code multiplies the residual with the Cholesky
factor instead of its transpose. -/
theorem C72_nls_value_partial (W : Matrix (Fin ny) (Fin ny) K) (hW : WeightOk c W)
    (hdiag : c.isDiag = true ∨ (low c.wchol)ᵀ = low c.wchol) (w w2 w3) (ident : Bool) (l : List (StepOut d K)) (S) :
    (scaled d scale (costLoop d o h t0 e u g (fun x t S b a => nlsStage d u N c scale x t S w3 b a) w w2 ident 0 l S
      (Acc.zero d))).val
      = scale / (N : K) * quadrature o h (fun x t => 1 / 2 * (c.res u x t ⬝ᵥ (W *ᵥ c.res u x t))) t0 l := by
  have hsym : c.factorᵀ = c.factor := by
    rcases hdiag with hd | hd
    · simp [Nls.factor, hd]
    · unfold Nls.factor; split
      · simp
      · exact hd
  have := costLoop_val o h t0 e u g (fun x t S b a => nlsStage d u N c scale x t S w3 b a) (fun a => a.val)
    (fun x t => 1 / (N : K) * (1 / 2 * (c.res u x t ⬝ᵥ (W *ᵥ c.res u x t))))
    (fun x t S b a => by
      
      have e1 : c.res u x t ⬝ᵥ (W *ᵥ c.res u x t) = (c.factor *ᵥ c.res u x t) ⬝ᵥ (c.factor *ᵥ c.res u x t) := by
        rw [weight_factor hW, ← Matrix.mulVec_mulVec, hsym]
        conv_lhs => rw [← hsym]
        rw [dot_tr', hsym]
      rw [nlsStage_eq]; simp only; rw [e1]; ring)
    w w2 ident l 0 S (Acc.zero d)
  simp only [scaled]
  rw [this, quadrature_smul]
  simp [Acc.zero]
  ring

/-- **C72 (least squares, gradient).**  The propagated gradient in every direction is the Runge-Kutta quadrature
of the derivative of the residual cost along the tangents of the stage values, times the scaling, if the weight
is diagonal.  The missing part is refuted by `C72_full_weight_false`. -/
theorem C72_nls_gradient_partial (hg : ExactLu g) (W : Matrix (Fin ny) (Fin ny) K) (hW : WeightOk c W)
    (hdiag : c.isDiag = true ∨ (low c.wchol)ᵀ = low c.wchol) (w w2 w3) (ident : Bool) (l : List (StepOut d K))
    (hr : RegularAlong o h e u t0 l) (S) (hid : ident = true → S = idSeed d K) (p : Fin (d.nx + d.nu) → K) :
    ∃ v, LinQuadrature o h e u
        (fun x t δx _ => (W *ᵥ c.res u x t) ⬝ᵥ inner (c.jt x u t) δx (sndP p)) (sndP p) (sndP p) t0 l
        (S *ᵥ p) (S *ᵥ p) v ∧
      (scaled d scale (costLoop d o h t0 e u g (fun x t S b a => nlsStage d u N c scale x t S w3 b a) w w2 ident 0 l S
        (Acc.zero d))).grad ⬝ᵥ ux p = scale / (N : K) * v := by
  have hsym : c.factorᵀ = c.factor := by
    rcases hdiag with hd | hd
    · simp [Nls.factor, hd]
    · unfold Nls.factor; split
      · simp
      · exact hd
  obtain ⟨v, h1, h2⟩ := costLoop_lin o h t0 e u g hg (fun x t S b a => nlsStage d u N c scale x t S w3 b a)
    (fun a => a.grad ⬝ᵥ ux p)
    (fun x t δx _ => scale / (N : K) * ((W *ᵥ c.res u x t) ⬝ᵥ inner (c.jt x u t) δx (sndP p))) p p
    (fun x t S b a => by
      rw [nls_grad, weight_factor hW, hsym, ← Matrix.mulVec_mulVec])
    w w2 ident l 0 S (Acc.zero d) (by simpa using hr) (fun _ => hid)
  obtain ⟨v', h3, rfl⟩ := linQuadrature_smul o h e u _ h1
  exact ⟨v', by simpa using h3, by simp only [scaled]; rw [h2]; simp [Acc.zero]⟩

/-- **C72 (least squares, Hessian).**  The propagated Hessian is the quadrature of the Gauss-Newton form
`(∂r δ_p) · W (∂r δ_q)` along the stage tangents, for every weight.  (It is not scaled here.) -/
theorem C72_nls_hessian (hg : ExactLu g) (W : Matrix (Fin ny) (Fin ny) K) (hW : WeightOk c W)
    (w w2 w3) (ident : Bool) (l : List (StepOut d K))
    (hr : RegularAlong o h e u t0 l) (S) (hid : ident = true → S = idSeed d K) (p q : Fin (d.nx + d.nu) → K) :
    ∃ v, LinQuadrature o h e u
        (fun x t δp δq => inner (c.jt x u t) δp (sndP p) ⬝ᵥ (W *ᵥ inner (c.jt x u t) δq (sndP q)))
        (sndP p) (sndP q) t0 l (S *ᵥ p) (S *ᵥ q) v ∧
      ux p ⬝ᵥ ((scaled d scale (costLoop d o h t0 e u g (fun x t S b a => nlsStage d u N c scale x t S w3 b a)
        w w2 ident 0 l S (Acc.zero d))).hess *ᵥ ux q) = 1 / (N : K) * v := by
  obtain ⟨v, h1, h2⟩ := costLoop_lin o h t0 e u g hg (fun x t S b a => nlsStage d u N c scale x t S w3 b a)
    (fun a => ux p ⬝ᵥ (a.hess *ᵥ ux q))
    (fun x t δp δq => 1 / (N : K) *
      (inner (c.jt x u t) δp (sndP p) ⬝ᵥ (W *ᵥ inner (c.jt x u t) δq (sndP q)))) p q
    (fun x t S b a => by rw [nls_hess, weight_factor hW])
    w w2 ident l 0 S (Acc.zero d) (by simpa using hr) (fun _ => hid)
  obtain ⟨v', h3, rfl⟩ := linQuadrature_smul o h e u _ h1
  exact ⟨v', by simpa using h3, by simp only [scaled]; rw [h2]; simp [Acc.zero]⟩

/-- **C72 (least squares, value with and without sensitivities).**  The cost value does not depend on whether
sensitivities are computed along with it. -/
theorem C72_nls_value_only (w w2 w3) (ident : Bool) (l : List (StepOut d K)) (S) :
    (scaled d scale (costLoop d o h t0 e u g (fun x t S b a => nlsStage d u N c scale x t S w3 b a) w w2 ident 0 l S
      (Acc.zero d))).val = nlsVal d o h t0 u N c scale 0 l 0 := by
  have key : ∀ (l : List (StepOut d K)) (ss : Nat) S a,
      (costLoop d o h t0 e u g (fun x t S b a => nlsStage d u N c scale x t S w3 b a) w w2 ident ss l S a).val * scale
        = nlsVal d o h t0 u N c scale ss l a.val := by
    intro l
    induction l with
    | nil => intro ss S a; rfl
    | cons s l ih =>
      intro ss S a
      simp only [costLoop, nlsVal]
      rw [ih]
      congr 1
      simp only [costStep]
      generalize dKdxu d o h t0 e u g ss (ident && ss == 0) s.x0 s.k w S = D
      have : ∀ n, (loop n (fun ii a => nlsStage d u N c scale (xt d o h s.x0 s.k ii) (tcur o h t0 ss ii)
          (sStage d o h D S w2 ii) w3 (o.b_vec ii) a) a).val = loop n (fun ii a =>
          let r : Fin ny → K := c.y (xt d o h s.x0 s.k ii) u (tcur o h t0 ss ii) + (-1 : K) • c.yref
          let y := if c.isDiag then (fun i => c.wdiag i * r i) else low c.wchol *ᵥ r
          a + 1 / 2 * o.b_vec ii / (N : K) * (y ⬝ᵥ y)) a.val := by
        intro n
        induction n with
        | zero => rfl
        | succ n ihn => rw [loop_succ, loop_succ, ← ihn]; rfl
      exact this d.s
  exact key l 0 S (Acc.zero d)

end Nls

section Conl
variable (o : Opts K) (h t0 : K) (e : Ext d K) (u : Fin d.nu → K) (N : Nat) (c : Conl d ny K) (scale : K)
variable (chol : Matrix (Fin ny) (Fin ny) K → Matrix (Fin ny) (Fin ny) K) (sq : K → K)
variable (g : Matrix (Fin (nK d)) (Fin (nK d)) K → Lu (Fin (nK d)) K)

/-- **C72 (convex-over-nonlinear, value).**  The propagated cost is the quadrature of the stage cost. -/
theorem C72_conl_value (w w2 w3) (ident : Bool) (l : List (StepOut d K)) (S) :
    (scaled d scale (costLoop d o h t0 e u g (fun x t S b a => conlStage d u N c chol sq scale x t S w3 b a)
      w w2 ident 0 l S (Acc.zero d))).val
      = scale / (N : K) * quadrature o h (fun x t => c.φ x u t) t0 l := by
  have := costLoop_val o h t0 e u g (fun x t S b a => conlStage d u N c chol sq scale x t S w3 b a) (fun a => a.val)
    (fun x t => 1 / (N : K) * c.φ x u t) (fun x t S b a => by simp only [conlStage]; ring)
    w w2 ident l 0 S (Acc.zero d)
  simp only [scaled]
  rw [this, quadrature_smul]
  simp [Acc.zero]
  ring

/-- the value computed without sensitivities -/
theorem C72_conl_value_only (l : List (StepOut d K)) :
    conlVal d o h t0 u N c scale 0 l 0 = scale / (N : K) * quadrature o h (fun x t => c.φ x u t) t0 l := by
  have key : ∀ (l : List (StepOut d K)) (ss : Nat) a, conlVal d o h t0 u N c scale ss l a
      = (a + 1 / (N : K) * quadrature o h (fun x t => c.φ x u t) (t0 + (ss : K) * h) l) * scale := by
    intro l
    induction l with
    | nil => intro ss a; simp [conlVal, quadrature]
    | cons s l ih =>
      intro ss a
      have ht : t0 + (ss : K) * h + h = t0 + ((ss + 1 : Nat) : K) * h := by push_cast; ring
      simp only [conlVal, quadrature]
      rw [ih, ht, mul_add, ← add_assoc]
      congr 2
      have key : ∀ n, loop n (fun ii a =>
          a + o.b_vec ii / (N : K) * c.φ (xt d o h s.x0 s.k ii) u (tcur o h t0 ss ii)) a
          = a + 1 / (N : K) * ∑ i ∈ Finset.range n, o.b_vec i * c.φ (xt d o h s.x0 s.k i) u (tcur o h t0 ss i) := by
        intro n
        induction n with
        | zero => simp [loop_zero]
        | succ n ihn => rw [loop_succ, ihn, Finset.sum_range_succ]; ring
      rw [key, Finset.sum_range]
      refine congrArg _ (congrArg _ (Finset.sum_congr rfl fun i _ => ?_))
      rw [xt_eq]; rfl
  rw [key l 0 0]
  simp
  ring

/-- **C72 (convex-over-nonlinear, gradient).**  The propagated gradient in every direction is the quadrature of
`∇φ · (∂r δ)` along the stage tangents, times the scaling. -/
theorem C72_conl_gradient (hg : ExactLu g) (w w2 w3) (ident : Bool) (l : List (StepOut d K))
    (hr : RegularAlong o h e u t0 l) (S) (hid : ident = true → S = idSeed d K) (p : Fin (d.nx + d.nu) → K) :
    ∃ v, LinQuadrature o h e u
        (fun x t δx _ => c.g x u t ⬝ᵥ inner (c.jt x u t) δx (sndP p)) (sndP p) (sndP p) t0 l
        (S *ᵥ p) (S *ᵥ p) v ∧
      (scaled d scale (costLoop d o h t0 e u g (fun x t S b a => conlStage d u N c chol sq scale x t S w3 b a)
        w w2 ident 0 l S (Acc.zero d))).grad ⬝ᵥ ux p = scale / (N : K) * v := by
  obtain ⟨v, h1, h2⟩ := costLoop_lin o h t0 e u g hg (fun x t S b a => conlStage d u N c chol sq scale x t S w3 b a)
    (fun a => a.grad ⬝ᵥ ux p)
    (fun x t δx _ => scale / (N : K) * (c.g x u t ⬝ᵥ inner (c.jt x u t) δx (sndP p))) p p
    (fun x t S b a => by
      simp only [conlStage, add_dotProduct, smul_dotProduct, smul_eq_mul]
      rw [dot_tr, jTilde_mulVec]; ring)
    w w2 ident l 0 S (Acc.zero d) (by simpa using hr) (fun _ => hid)
  obtain ⟨v', h3, rfl⟩ := linQuadrature_smul o h e u _ h1
  exact ⟨v', by simpa using h3, by simp only [scaled]; rw [h2]; simp [Acc.zero]⟩

/-- the outer Hessian factorises: `sqrt` of a diagonal one, Cholesky factor of a full one -/
def OuterOk (c : Conl d ny K) (u : Fin d.nu → K) (chol : Matrix (Fin ny) (Fin ny) K → Matrix (Fin ny) (Fin ny) K)
    (sq : K → K) : Prop := ∀ x t,
  (c.isDiag x u t = true → c.W x u t = Matrix.diagonal (fun i => c.W x u t i i) ∧
    ∀ i, sq (c.W x u t i i) * sq (c.W x u t i i) = c.W x u t i i) ∧
  (c.isDiag x u t = false → low (chol (c.W x u t)) * (low (chol (c.W x u t)))ᵀ = c.W x u t)

theorem symL_lower {n : Nat} (A M : Matrix (Fin n) (Fin n) K) (hM : Mᵀ = M) :
    symL (fun i j => if j.val ≤ i.val then (A + M) i j else A i j) = symL A + M := by
  ext i j
  have hs : M j i = M i j := congrFun (congrFun hM i) j
  simp only [symL, Matrix.add_apply]
  by_cases h1 : j.val ≤ i.val
  · simp only [h1, if_true]
  · have h2 : i.val ≤ j.val := by omega
    simp only [h1, h2, if_true, if_false, hs]

/-- **C72 (convex-over-nonlinear, Hessian).**  The symmetric matrix given by the lower triangle of the propagated
Hessian is the quadrature of `(∂r δ_p) · ∇²φ (∂r δ_q)` along the stage tangents. -/
theorem C72_conl_hessian (hg : ExactLu g) (hc : OuterOk c u chol sq)
    (w w2 w3) (ident : Bool) (l : List (StepOut d K))
    (hr : RegularAlong o h e u t0 l) (S) (hid : ident = true → S = idSeed d K) (p q : Fin (d.nx + d.nu) → K) :
    ∃ v, LinQuadrature o h e u
        (fun x t δp δq => inner (c.jt x u t) δp (sndP p) ⬝ᵥ (c.W x u t *ᵥ inner (c.jt x u t) δq (sndP q)))
        (sndP p) (sndP q) t0 l (S *ᵥ p) (S *ᵥ q) v ∧
      ux p ⬝ᵥ (symL (scaled d scale (costLoop d o h t0 e u g
        (fun x t S b a => conlStage d u N c chol sq scale x t S w3 b a) w w2 ident 0 l S (Acc.zero d))).hess *ᵥ ux q)
        = 1 / (N : K) * v := by
  obtain ⟨v, h1, h2⟩ := costLoop_lin o h t0 e u g hg (fun x t S b a => conlStage d u N c chol sq scale x t S w3 b a)
    (fun a => ux p ⬝ᵥ (symL a.hess *ᵥ ux q))
    (fun x t δp δq => 1 / (N : K) *
      (inner (c.jt x u t) δp (sndP p) ⬝ᵥ (c.W x u t *ᵥ inner (c.jt x u t) δq (sndP q)))) p q
    (fun x t S b a => by
      obtain ⟨M, hM, hW⟩ : ∃ M : Matrix (Fin ny) (Fin ny) K,
          (if c.isDiag x u t then (jTilde d (c.jt x u t) S w3)ᵀ * Matrix.diagonal (fun i => sq (c.W x u t i i))
            else (jTilde d (c.jt x u t) S w3)ᵀ * low (chol (c.W x u t))) = (jTilde d (c.jt x u t) S w3)ᵀ * M ∧
          M * Mᵀ = c.W x u t := by
        cases hd : c.isDiag x u t with
        | true =>
          refine ⟨_, if_pos rfl, ?_⟩
          rw [Matrix.diagonal_transpose, Matrix.diagonal_mul_diagonal, ((hc x t).1 hd).1]
          congr 1; funext i; simp only [Matrix.diagonal_apply_eq]; exact ((hc x t).1 hd).2 i
        | false => exact ⟨_, if_neg (by simp), (hc x t).2 hd⟩
      simp only [conlStage]
      rw [hM, symL_lower _ _ (by
        rw [Matrix.transpose_smul, Matrix.transpose_mul, Matrix.transpose_transpose])]
      simp only [Matrix.add_mulVec, dotProduct_add, Matrix.smul_mulVec, dotProduct_smul, smul_eq_mul]
      rw [Matrix.transpose_mul, Matrix.transpose_transpose, Matrix.mul_assoc, ← Matrix.mul_assoc M, hW,
        ← Matrix.mulVec_mulVec, ← Matrix.mulVec_mulVec, jTilde_mulVec, dot_tr', jTilde_mulVec]
      ring)
    w w2 ident l 0 S (Acc.zero d) (by simpa using hr) (fun _ => hid)
  obtain ⟨v', h3, rfl⟩ := linQuadrature_smul o h e u _ h1
  refine ⟨v', by simpa using h3, ?_⟩
  have h0 : symL (0 : Matrix (Fin (d.nu + d.nx)) (Fin (d.nu + d.nx)) K) = 0 := by ext i j; simp [symL]
  simp only [scaled]; rw [h2]; simp [Acc.zero, h0]

end Conl

/-! ### The hypotheses are met; a full weight refutes value and gradient

Implicit Euler with step `1/2` for `ẋ = u`, residual `y = (x, u)`. -/

abbrev dJ : Dims := ⟨1, 1, 1, 0, 0⟩
def oJ : Opts ℚ := ⟨fun _ => 1, fun _ => 1, fun _ => 1, 1, 1 / 100, false⟩
def eJ : Ext dJ ℚ where
  f _ k u _ _ := ![k 0 - u 0]
  fx _ _ _ _ _ := 0
  fk _ _ _ _ _ := !![1]
  fu _ _ _ _ _ := !![-1]
  fz _ _ _ _ _ := 0
  fp _ _ _ _ _ := 0
  hess _ _ _ _ _ _ := 0

def gJ (M : Matrix (Fin (nK dJ)) (Fin (nK dJ)) ℚ) : Lu (Fin (nK dJ)) ℚ := ⟨1, 1, M, 1, fun _ _ => (M 0 0)⁻¹⟩

theorem exactJ : ExactLu (d := dJ) gJ := by
  intro M hM
  let : Unique (Fin (nK dJ)) := inferInstanceAs (Unique (Fin 1))
  have hdet : M 0 0 ≠ 0 := by
    have h1 := ((Matrix.isUnit_iff_isUnit_det M).mp hM).ne_zero
    intro h0; apply h1
    exact (Matrix.det_unique M).trans h0
  refine ⟨by simp [gJ], by simp [gJ], ?_⟩
  ext i j
  rw [Subsingleton.elim i 0, Subsingleton.elim j 0]
  rw [Matrix.mul_apply, Fintype.sum_unique]
  exact mul_inv_cancel₀ hdet

theorem regularJ (u : Fin 1 → ℚ) (t : ℚ) (l : List (StepOut dJ ℚ)) : RegularAlong oJ (1 / 2) eJ u t l := by
  induction l generalizing t with
  | nil => trivial
  | cons s l ih =>
    refine ⟨?_, ih _⟩
    intro δk δz hz
    have h0 := congrFun (hz 0) 0
    simp [tangent, atStage, eJ, dotProduct, Matrix.vecHead, Matrix.vecTail] at h0
    constructor
    · funext i c; rw [Subsingleton.elim i 0, Subsingleton.elim c 0]; exact h0
    · funext i c; exact c.elim0

/-- residual `(x, u)`; diagonal weight `diag(1, 4)`, or the full weight `(1, 1; 1, 2)` with its factor -/
def cJ (diag : Bool) : Nls dJ 2 ℚ where
  y x u _ := ![x 0, u 0]
  jt _ _ _ := !![0, 1; 1, 0]
  yref := ![0, 0]
  isDiag := diag
  wdiag := ![1, 2]
  wchol := !![1, 0; 1, 1]

def wJ (diag : Bool) : Matrix (Fin 2) (Fin 2) ℚ := if diag then !![1, 0; 0, 4] else !![1, 1; 1, 2]

theorem weightJ (diag : Bool) : WeightOk (cJ diag) (wJ diag) := by
  cases diag <;> refine ⟨fun hd => ?_, fun hd => ?_⟩ <;> first | (exact absurd hd (by decide)) | decide +kernel

/-- the step from `x = 0` with `u = 2`: `k = 2`, next state `1` -/
def sJ : StepOut dJ ℚ := step dJ oJ (1 / 2) 0 eJ ![2] gJ 0 (gJ 0) 0 0 ![0]

/-- propagated cost of one step with scaling `3` -/
def accJ (diag : Bool) : Acc dJ ℚ := scaled dJ 3 (costLoop dJ oJ (1 / 2) 0 eJ ![2] gJ
  (fun x t S b a => nlsStage dJ ![2] 1 (cJ diag) 3 x t S 0 b a) 0 0 false 0 [sJ] (idSeed dJ ℚ) (Acc.zero dJ))

/-- diagonal weight, residual `(1, 2)`: value `3 · ½ (1 + 4 · 4)`, gradient `3 (½ · 1 + 8, 1)` -/
example : (accJ true).val = 51 / 2 ∧ (accJ true).grad = ![51 / 2, 3] ∧
    (accJ true).hess = !![17 / 4, 1 / 2; 1 / 2, 1] := by decide +kernel

example : (accJ true).val = 3 / ((1 : Nat) : ℚ) *
    quadrature oJ (1 / 2) (fun x t => 1 / 2 * ((cJ true).res ![2] x t ⬝ᵥ (wJ true *ᵥ (cJ true).res ![2] x t))) 0 [sJ] :=
  C72_nls_value_partial oJ (1 / 2) 0 eJ ![2] 1 (cJ true) 3 gJ (wJ true) (weightJ true) (Or.inl rfl) 0 0 0 false [sJ] _

example (p : Fin 2 → ℚ) := C72_nls_gradient_partial oJ (1 / 2) 0 eJ ![2] 1 (cJ true) 3 gJ exactJ (wJ true)
  (weightJ true) (Or.inl rfl) 0 0 0 false [sJ] (regularJ _ _ _) (idSeed dJ ℚ) (fun _ => rfl) p

example (diag : Bool) (p q : Fin 2 → ℚ) := C72_nls_hessian oJ (1 / 2) 0 eJ ![2] 1 (cJ diag) 3 gJ exactJ (wJ diag)
  (weightJ diag) 0 0 0 false [sJ] (regularJ _ _ _) (idSeed dJ ℚ) (fun _ => rfl) p q

/-- **C72 is false for a full weight.**  With `W = (1, 1; 1, 2) = L Lᵀ` and residual `r = (1, 2)` the cost is
`½ rᵀ W r = 13/2`; the code multiplies with `L` instead of `Lᵀ` and returns `½ ‖L r‖² = 5` (both times the scaling
`3`).  The derivative with respect to the initial state is `(W r)_1 = 3`; the code returns `(L L r)_1 = 1`. -/
theorem C72_full_weight_false :
    ExactLu (d := dJ) gJ ∧ RegularAlong oJ (1 / 2) eJ ![2] 0 [sJ] ∧ WeightOk (cJ false) (wJ false) ∧
    quadrature oJ (1 / 2) (fun x t => 1 / 2 * ((cJ false).res ![2] x t ⬝ᵥ (wJ false *ᵥ (cJ false).res ![2] x t)))
      0 [sJ] = 13 / 2 ∧ (accJ false).val = 3 * 5 ∧
    LinQuadrature oJ (1 / 2) eJ ![2] (fun x t δx _ => (wJ false *ᵥ (cJ false).res ![2] x t) ⬝ᵥ
      inner ((cJ false).jt x ![2] t) δx ![0]) ![0] ![0] 0 [sJ] ![1] ![1] 3 ∧
    (accJ false).grad ⬝ᵥ ux (d := dJ) ![1, 0] = 3 * 1 := by
  refine ⟨exactJ, regularJ _ _ _, weightJ false, by decide +kernel, by decide +kernel, ?_, by decide +kernel⟩
  have hs : LinStep oJ (1 / 2) eJ ![2] (sJ.pt 0) 0 ![1] ![0] 0 0 ![1] := ⟨by decide +kernel, by decide +kernel⟩
  have := LinQuadrature.cons (B := fun x t δx _ => (wJ false *ᵥ (cJ false).res ![2] x t) ⬝ᵥ
      inner ((cJ false).jt x ![2] t) δx ![0]) (0 : ℚ) sJ [] _ _ _ _ _ _ _ _ 0 hs hs (LinQuadrature.nil _ _ _)
  have hv : (∑ i : Fin dJ.s, oJ.b_vec i.val * ((wJ false *ᵥ (cJ false).res ![2]
      (stageOf oJ (1 / 2) sJ.x0 (kB dJ sJ.k) i) (0 + oJ.c_vec i.val * (1 / 2))) ⬝ᵥ
      inner ((cJ false).jt (stageOf oJ (1 / 2) sJ.x0 (kB dJ sJ.k) i) ![2] (0 + oJ.c_vec i.val * (1 / 2)))
        (stageOf oJ (1 / 2) ![1] 0 i) ![0]) + 0) = 3 := by decide +kernel
  rw [← hv]
  exact this

/-- convex-over-nonlinear: `φ(r) = ½ r_1² + r_1 r_2 + r_2²`, `r = (x, u)` -/
def clJ : Conl dJ 2 ℚ where
  φ x u _ := 1 / 2 * x 0 ^ 2 + x 0 * u 0 + u 0 ^ 2
  g x u _ := ![x 0 + u 0, x 0 + 2 * u 0]
  jt _ _ _ := !![0, 1; 1, 0]
  W _ _ _ := !![1, 1; 1, 2]
  isDiag _ _ _ := false

def cholJ (_ : Matrix (Fin 2) (Fin 2) ℚ) : Matrix (Fin 2) (Fin 2) ℚ := !![1, 0; 1, 1]

theorem outerJ (u : Fin 1 → ℚ) : OuterOk clJ u cholJ (fun x => x) := by
  intro x t
  exact ⟨fun hd => absurd hd (by simp [clJ]), fun _ => by
    simp only [clJ, cholJ]; decide +kernel⟩

example := C72_conl_value oJ (1 / 2) 0 eJ ![2] 1 clJ 3 cholJ (fun x => x) gJ 0 0 0 false [sJ] (idSeed dJ ℚ)

example (p : Fin 2 → ℚ) := C72_conl_gradient oJ (1 / 2) 0 eJ ![2] 1 clJ 3 cholJ (fun x => x) gJ exactJ
  0 0 0 false [sJ] (regularJ _ _ _) (idSeed dJ ℚ) (fun _ => rfl) p

example (p q : Fin 2 → ℚ) := C72_conl_hessian oJ (1 / 2) 0 eJ ![2] 1 clJ 3 cholJ (fun x => x) gJ exactJ (outerJ _)
  0 0 0 false [sJ] (regularJ _ _ _) (idSeed dJ ℚ) (fun _ => rfl) p q

end Acados.Irk
