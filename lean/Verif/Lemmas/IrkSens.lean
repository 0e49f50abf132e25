import Verif.Lemmas.Irk
/-! Helper lemmas for the sensitivities of the implicit Runge-Kutta integrator. -/
namespace Acados.Irk
open Matrix
open Acados.Gnsf (Lu IsLu solveV solveM solveT)
set_option linter.unusedSectionVars false
variable {K : Type*} [Field K] [LinearOrder K] {d : Dims}

theorem gecpsc_apply_in {p q p' q' : Nat} (m n : Nat) (α : K) (A : Matrix (Fin p) (Fin q) K) (ai aj : Nat)
    (B : Matrix (Fin p') (Fin q') K) (bi bj : Nat) (r : Fin p') (c : Fin q')
    (hr : bi ≤ r.val ∧ r.val < bi + m) (hc : bj ≤ c.val ∧ c.val < bj + n) :
    gecpsc m n α A ai aj B bi bj r c = α * rd2 A (ai + (r.val - bi)) (aj + (c.val - bj)) := by
  simp only [gecpsc, hr, hc, and_self, if_true]

theorem gecpsc_apply_out {p q p' q' : Nat} (m n : Nat) (α : K) (A : Matrix (Fin p) (Fin q) K) (ai aj : Nat)
    (B : Matrix (Fin p') (Fin q') K) (bi bj : Nat) (r : Fin p') (c : Fin q')
    (hr : ¬ ((bi ≤ r.val ∧ r.val < bi + m) ∧ (bj ≤ c.val ∧ c.val < bj + n))) :
    gecpsc m n α A ai aj B bi bj r c = B r c := by
  simp only [gecpsc, if_neg hr]

theorem rd2_lt {m n : Nat} (A : Matrix (Fin m) (Fin n) K) (i j : Nat) (hi : i < m) (hj : j < n) :
    rd2 A i j = A ⟨i, hi⟩ ⟨j, hj⟩ := by simp [rd2, hi, hj]

theorem pos_lt {m s : Nat} (i : Fin s) (r : Fin m) : i.val * m + r.val < m * s := by
  have : (i.val + 1) * m ≤ s * m := Nat.mul_le_mul_right _ i.isLt
  have h2 := r.isLt
  rw [Nat.mul_comm m s]; nlinarith

theorem blk_ne {m : Nat} {i n : Nat} (r : Fin m) (hne : i ≠ n) :
    ¬ (n * m ≤ i * m + r.val ∧ i * m + r.val < n * m + m) := by
  rintro ⟨h1, h2⟩
  have h3 := r.isLt
  rcases Nat.lt_or_gt_of_ne hne with hl | hl
  · have : (i + 1) * m ≤ n * m := Nat.mul_le_mul_right _ hl
    rw [Nat.add_mul] at this; omega
  · have : (n + 1) * m ≤ i * m := Nat.mul_le_mul_right _ hl
    rw [Nat.add_mul] at this; omega

section Step
variable (o : Opts K) (h t0 : K) (e : Ext d K) (u : Fin d.nu → K)

/-- entries of `dG_dxu` -/
theorem dGdxu_apply (ss : Nat) (xn : Fin d.nx → K) (k : Fin (nK d) → K)
    (w : Matrix (Fin (nK d)) (Fin (d.nx + d.nu)) K) (i : Fin d.s) (r : Fin (d.nx + d.nz)) :
    (∀ c : Fin d.nx, dGdxu d o h t0 e u ss xn k w ⟨i.val * (d.nx + d.nz) + r.val, pos_lt i r⟩ (Fin.castAdd d.nu c)
        = atStage o h u (ptOf d ss h t0 xn k) i e.fx r c) ∧
    (∀ c : Fin d.nu, dGdxu d o h t0 e u ss xn k w ⟨i.val * (d.nx + d.nz) + r.val, pos_lt i r⟩ (Fin.natAdd d.nx c)
        = atStage o h u (ptOf d ss h t0 xn k) i e.fu r c) := by
  have key : ∀ n, n ≤ d.s → i.val < n →
    (∀ c : Fin d.nx, loop n (fun ii M =>
      gecpsc (d.nx + d.nz) d.nu 1
        (e.fu (xt d o h xn k ii) (kin d k ii) u (zin d k ii) (tcur o h t0 ss ii)) 0 0
        (gecpsc (d.nx + d.nz) d.nx 1
          (e.fx (xt d o h xn k ii) (kin d k ii) u (zin d k ii) (tcur o h t0 ss ii)) 0 0 M
          (ii * (d.nx + d.nz)) 0)
        (ii * (d.nx + d.nz)) d.nx) w ⟨i.val * (d.nx + d.nz) + r.val, pos_lt i r⟩ (Fin.castAdd d.nu c)
        = atStage o h u (ptOf d ss h t0 xn k) i e.fx r c) ∧
    (∀ c : Fin d.nu, loop n (fun ii M =>
      gecpsc (d.nx + d.nz) d.nu 1
        (e.fu (xt d o h xn k ii) (kin d k ii) u (zin d k ii) (tcur o h t0 ss ii)) 0 0
        (gecpsc (d.nx + d.nz) d.nx 1
          (e.fx (xt d o h xn k ii) (kin d k ii) u (zin d k ii) (tcur o h t0 ss ii)) 0 0 M
          (ii * (d.nx + d.nz)) 0)
        (ii * (d.nx + d.nz)) d.nx) w ⟨i.val * (d.nx + d.nz) + r.val, pos_lt i r⟩ (Fin.natAdd d.nx c)
        = atStage o h u (ptOf d ss h t0 xn k) i e.fu r c) := by
    intro n
    induction n with
    | zero => intro _ hi; omega
    | succ n ih =>
      intro hn hi
      simp only [loop_succ]
      by_cases hin : i.val = n
      · subst hin
        refine ⟨fun c => ?_, fun c => ?_⟩
        · rw [gecpsc_apply_out, gecpsc_apply_in, ← at_eq o h t0 u ss xn k i e.fx, one_mul,
            rd2_lt _ _ _ (by simp) (by simp)]
          · congr 1 <;> apply Fin.ext <;> simp
          · exact ⟨by simp, by simp⟩
          · exact ⟨by simp, by simp⟩
          · simp only [Fin.val_castAdd, not_and]; intro _ h1; have := c.isLt; omega
        · rw [gecpsc_apply_in, ← at_eq o h t0 u ss xn k i e.fu, one_mul, rd2_lt _ _ _ (by simp) (by simp)]
          · congr 1 <;> apply Fin.ext <;> simp
          · exact ⟨by simp, by simp⟩
          · exact ⟨by simp, by simp⟩
      · have hout := blk_ne (m := d.nx + d.nz) r hin
        obtain ⟨i1, i2⟩ := ih (by omega) (by omega)
        refine ⟨fun c => ?_, fun c => ?_⟩
        · rw [gecpsc_apply_out _ _ _ _ _ _ _ _ _ _ _ (fun hh => hout hh.1),
            gecpsc_apply_out _ _ _ _ _ _ _ _ _ _ _ (fun hh => hout hh.1)]
          exact i1 c
        · rw [gecpsc_apply_out _ _ _ _ _ _ _ _ _ _ _ (fun hh => hout hh.1),
            gecpsc_apply_out _ _ _ _ _ _ _ _ _ _ _ (fun hh => hout hh.1)]
          exact i2 c
  exact key d.s le_rfl i.isLt

/-- `dG_dxu` is the derivative of the stage equations with respect to state and control -/
theorem dGdxu_mulVec (ss : Nat) (xn : Fin d.nx → K) (k : Fin (nK d) → K)
    (w : Matrix (Fin (nK d)) (Fin (d.nx + d.nu)) K) (v : Fin (d.nx + d.nu) → K) (i : Fin d.s) :
    rB d (dGdxu d o h t0 e u ss xn k w *ᵥ v) i
      = atStage o h u (ptOf d ss h t0 xn k) i e.fx *ᵥ fstP v
        + atStage o h u (ptOf d ss h t0 xn k) i e.fu *ᵥ sndP v := by
  funext r
  obtain ⟨h1, h2⟩ := dGdxu_apply o h t0 e u ss xn k w i r
  simp only [rB, blk, rd_lt _ _ (pos_lt i r), Pi.add_apply, mulVec, dotProduct, Fin.sum_univ_add, h1, h2]
  rfl

theorem gemm_eq {p r t n : Nat} (A : Matrix (Fin p) (Fin (r + n)) K) (S : Matrix (Fin r) (Fin t) K) :
    gemm r A S = (Matrix.of fun i l => A i (Fin.castAdd n l)) * S := by
  ext i j
  simp only [gemm, Matrix.mul_apply, Matrix.of_apply, Finset.sum_range]
  refine Finset.sum_congr rfl fun l _ => ?_
  rw [rd2_lt _ _ _ i.isLt (by have := l.isLt; omega), rd2_lt _ _ _ l.isLt j.isLt]
  rfl

/-- `(x, u)` -/
def cat2 {m n : Nat} (x : Fin m → K) (y : Fin n → K) : Fin (m + n) → K := Fin.append x y
theorem fst_cat2 {m n : Nat} (x : Fin m → K) (y : Fin n → K) : fstP (cat2 x y) = x := by
  funext i; simp [fstP, cat2]
theorem snd_cat2 {m n : Nat} (x : Fin m → K) (y : Fin n → K) : sndP (cat2 x y) = y := by
  funext i; simp [sndP, cat2]
theorem cat2_eta {m n : Nat} (w : Fin (m + n) → K) : cat2 (fstP w) (sndP w) = w := by
  funext i
  refine Fin.addCases (fun i => ?_) (fun i => ?_) i <;> simp [cat2, fstP, sndP]

/-- right hand side of the sensitivity system: `dG_dx S + [0, dG_du]` -/
theorem rhs_mulVec (G : Matrix (Fin (nK d)) (Fin (d.nx + d.nu)) K) (S : Matrix (Fin d.nx) (Fin (d.nx + d.nu)) K)
    (v : Fin (d.nx + d.nu) → K) :
    gead (nK d) d.nu 1 G 0 d.nx (gemm d.nx G S) 0 d.nx *ᵥ v = G *ᵥ cat2 (S *ᵥ v) (sndP v) := by
  funext r
  have e1 : (gemm d.nx G S *ᵥ v) r = ∑ l : Fin d.nx, G r (Fin.castAdd d.nu l) * (S *ᵥ v) l := by
    rw [gemm_eq, ← Matrix.mulVec_mulVec]; rfl
  have e2 : (gead (nK d) d.nu 1 G 0 d.nx (gemm d.nx G S) 0 d.nx *ᵥ v) r
      = (gemm d.nx G S *ᵥ v) r + ∑ l : Fin d.nu, G r (Fin.natAdd d.nx l) * v (Fin.natAdd d.nx l) := by
    simp only [mulVec, dotProduct, Fin.sum_univ_add]
    rw [add_assoc, ← Finset.sum_add_distrib]
    congr 1
    · refine Finset.sum_congr rfl fun c _ => ?_
      simp only [gead, Fin.val_castAdd]
      rw [if_neg (by have := c.isLt; omega)]
    · refine Finset.sum_congr rfl fun c _ => ?_
      simp only [gead, Fin.val_natAdd]
      rw [if_pos ⟨⟨Nat.zero_le _, by simp⟩, by omega, by have := c.isLt; omega⟩, rd2_lt _ _ _ (by simp) (by simp)]
      have : (⟨0 + (r.val - 0), by simp⟩ : Fin (nK d)) = r := by apply Fin.ext; simp
      rw [this]
      have : (⟨d.nx + (d.nx + c.val - d.nx), by simp⟩ : Fin (d.nx + d.nu)) = Fin.natAdd d.nx c := by
        apply Fin.ext; simp
      rw [this]; ring
  rw [e2, e1]
  simp only [mulVec, dotProduct, Fin.sum_univ_add, cat2, Fin.append_left, Fin.append_right]
  rfl

theorem forwNext_gen {n : Nat} (b : Nat → K) (D : Matrix (Fin (nK d)) (Fin n) K) (S : Matrix (Fin d.nx) (Fin n) K)
    (v : Fin n → K) (m : Nat) (hm : m ≤ d.s) :
    loop m (fun jj S => gead d.nx n (b jj) D (jj * d.nx) 0 S 0 0) S *ᵥ v
      = S *ᵥ v + ∑ j ∈ Finset.range m, b j • blk d.nx (j * d.nx) (D *ᵥ v) := by
  induction m with
  | zero => simp [loop_zero]
  | succ m ih =>
    rw [loop_succ, Finset.sum_range_succ, ← add_assoc, ← ih (by omega)]
    generalize loop m _ S = X
    funext r
    have h1 : (m + 1) * d.nx ≤ d.s * d.nx := Nat.mul_le_mul_right _ hm
    rw [Nat.add_mul] at h1
    have hlt : m * d.nx + r.val < nK d := by have := nK_split d; have := r.isLt; omega
    simp only [Pi.add_apply, Pi.smul_apply, smul_eq_mul, blk, rd_lt _ _ hlt, mulVec, dotProduct]
    rw [Finset.mul_sum, ← Finset.sum_add_distrib]
    refine Finset.sum_congr rfl fun c _ => ?_
    simp only [gead]
    rw [if_pos ⟨⟨Nat.zero_le _, by simp⟩, Nat.zero_le _, by simp⟩, Nat.sub_zero, Nat.sub_zero, Nat.zero_add,
      rd2_lt _ _ _ hlt c.isLt]
    ring

/-- update of a sensitivity matrix: the code keeps the negative derivative of the stage vector -/
theorem next_mulVec {n : Nat} (D : Matrix (Fin (nK d)) (Fin n) K) (S : Matrix (Fin d.nx) (Fin n) K)
    (v : Fin n → K) :
    loop d.s (fun jj S => gead d.nx n (-h * o.b_vec jj) D (jj * d.nx) 0 S 0 0) S *ᵥ v
      = nextOf o h (S *ᵥ v) (kB d (-(D *ᵥ v))) := by
  rw [forwNext_gen (fun jj => -h * o.b_vec jj) D S v d.s le_rfl]
  funext r
  simp only [nextOf, Pi.add_apply, Finset.sum_apply, Pi.smul_apply, smul_eq_mul]
  rw [Finset.sum_range, Finset.mul_sum]
  congr 1
  refine Finset.sum_congr rfl fun j _ => ?_
  have : kB d (-(D *ᵥ v)) j r = - blk d.nx (j.val * d.nx) (D *ᵥ v) r := by
    rw [← kB_blk]; rfl
  rw [this]; ring

theorem stageOf_split {s n : Nat} (x : Fin n → K) (k : Fin s → Fin n → K) (i : Fin s) :
    stageOf o h x k i = x + stageOf o h 0 k i := by
  funext r; simp [stageOf]

theorem stageOf_neg {s n : Nat} (k : Fin s → Fin n → K) (i : Fin s) :
    stageOf o h 0 (-k) i = - stageOf o h 0 k i := by
  funext r; simp [stageOf]

theorem tangent_split (P : Pt d K) (δx : Fin d.nx → K) (δu : Fin d.nu → K) (δk : Fin d.s → Fin d.nx → K)
    (δz : Fin d.s → Fin d.nz → K) (i : Fin d.s) :
    tangent o h e u P δx δu δk δz i = tangent o h e u P 0 0 δk δz i
      + (atStage o h u P i e.fx *ᵥ δx + atStage o h u P i e.fu *ᵥ δu) := by
  simp only [tangent]
  rw [stageOf_split o h δx, Matrix.mulVec_add, Matrix.mulVec_zero]
  abel

theorem tangent_neg (P : Pt d K) (δk : Fin d.s → Fin d.nx → K) (δz : Fin d.s → Fin d.nz → K) (i : Fin d.s) :
    tangent o h e u P 0 0 (-δk) (-δz) i = - tangent o h e u P 0 0 δk δz i := by
  simp only [tangent]
  rw [stageOf_neg, Matrix.mulVec_neg, Matrix.mulVec_zero]
  have h1 : (-δk) i = -(δk i) := rfl
  have h2 : (-δz) i = -(δz i) := rfl
  rw [h1, h2, Matrix.mulVec_neg, Matrix.mulVec_neg]
  abel

theorem kB_neg (v : Fin (nK d) → K) : kB d (-v) = - kB d v := rfl
theorem zB_neg (v : Fin (nK d) → K) : zB d (-v) = - zB d v := rfl
theorem rB_neg (v : Fin (nK d) → K) (i : Nat) : rB d (-v) i = - rB d v i := by
  funext c; simp only [rB, blk, rd, Pi.neg_apply]; split <;> simp

/-- solving the stage system -/
theorem solve_tangent {ss : Nat} {xn : Fin d.nx → K} {k : Fin (nK d) → K} {lu : Lu (Fin (nK d)) K}
    (hl : IsLu (dGdK d o h t0 e u ss xn k) lu) (y : Fin (nK d) → K) (i : Fin d.s) :
    tangent o h e u (ptOf d ss h t0 xn k) 0 0 (kB d (solveV lu y)) (zB d (solveV lu y)) i = rB d y i := by
  rw [← dGdK_mulVec, Acados.Gnsf.mulVec_solveV hl]

theorem solveM_mulVec {n : Nat} (lu : Lu (Fin (nK d)) K) (X : Matrix (Fin (nK d)) (Fin n) K) (v : Fin n → K) :
    solveM lu X *ᵥ v = solveV lu (X *ᵥ v) := by
  simp only [solveM, Acados.Gnsf.trsm, solveV, Acados.Gnsf.rowpe, ← Matrix.mulVec_mulVec]
  rfl

end Step

theorem sum_blocks (s n : Nat) (F : Nat → K) :
    ∑ a ∈ Finset.range (s * n), F a = ∑ i ∈ Finset.range s, ∑ c ∈ Finset.range n, F (i * n + c) := by
  induction s with
  | zero => simp
  | succ s ih => rw [Nat.add_mul, Nat.one_mul, Finset.sum_range_add, ih, Finset.sum_range_succ]

/-- scalar product of stage vectors, block by block -/
theorem dot_blocks (v w : Fin (nK d) → K) :
    v ⬝ᵥ w = (∑ i : Fin d.s, kB d v i ⬝ᵥ kB d w i) + ∑ i : Fin d.s, zB d v i ⬝ᵥ zB d w i := by
  have hs := nK_split d
  have e1 : v ⬝ᵥ w = ∑ a ∈ Finset.range (nK d), rd v a * rd w a := by
    rw [Finset.sum_range]
    simp only [dotProduct]
    refine Finset.sum_congr rfl fun a _ => ?_
    rw [rd_lt _ _ a.isLt, rd_lt _ _ a.isLt]
  have e2 : ∀ F : Nat → K, ∑ a ∈ Finset.range (nK d), F a
      = ∑ a ∈ Finset.range (d.s * d.nx + d.s * d.nz), F a := fun F => by rw [← hs]
  rw [e1, e2, Finset.sum_range_add, sum_blocks, sum_blocks, Finset.sum_range, Finset.sum_range]
  congr 1
  · refine Finset.sum_congr rfl fun i _ => ?_
    rw [Finset.sum_range, kB_blk, kB_blk]; rfl
  · refine Finset.sum_congr rfl fun i _ => ?_
    rw [Finset.sum_range, zB_blk, zB_blk]
    simp only [dotProduct, blk, Nat.add_assoc]

theorem tdot' {ι ν : Type*} [Fintype ι] [Fintype ν] (A : Matrix ι ν K) (l : ι → K) (x : ν → K) :
    (Aᵀ *ᵥ l) ⬝ᵥ x = l ⬝ᵥ (A *ᵥ x) := by
  rw [Matrix.mulVec_transpose, Matrix.dotProduct_mulVec]

/-- right hand side of the adjoint system -/
theorem lam_blocks (b : Nat → K) (lm : Fin (d.nx + d.nu) → K) (i : Fin d.s) :
    kB d (loop d.s (fun jj v => dveccpsc d.nx (b jj) lm 0 v (jj * d.nx)) 0) i = b i.val • fstP lm
    ∧ zB d (loop d.s (fun jj v => dveccpsc d.nx (b jj) lm 0 v (jj * d.nx)) 0) i = 0 := by
  have key : ∀ n, n ≤ d.s →
      (kB d (loop n (fun jj v => dveccpsc d.nx (b jj) lm 0 v (jj * d.nx)) 0) i
        = if i.val < n then b i.val • fstP lm else 0)
      ∧ zB d (loop n (fun jj v => dveccpsc d.nx (b jj) lm 0 v (jj * d.nx)) 0) i = 0 := by
    intro n
    induction n with
    | zero => intro _; exact ⟨by rw [if_neg (by omega)]; rfl, rfl⟩
    | succ n ih =>
      intro hn
      obtain ⟨h1, h2⟩ := ih (by omega)
      simp only [loop_succ]
      generalize loop n _ (0 : Fin (nK d) → K) = X at h1 h2 ⊢
      have hnx : (n + 1) * d.nx ≤ d.s * d.nx := Nat.mul_le_mul_right _ hn
      rw [Nat.add_mul] at hnx
      refine ⟨funext fun c => ?_, funext fun c => ?_⟩
      · have hcl := c.isLt
        simp only [kB, dveccpsc]
        by_cases hin : i.val = n
        · rw [← hin]
          rw [if_pos ⟨by omega, by omega⟩, rd_lt _ _ (by omega), if_pos (by omega)]
          simp only [Pi.smul_apply, smul_eq_mul, fstP]
          congr 2; apply Fin.ext; simp
        · have := blk_ne (m := d.nx) c hin
          rw [if_neg this]
          refine (congrFun h1 c).trans ?_
          by_cases h3 : i.val < n
          · rw [if_pos h3, if_pos (by omega)]
          · rw [if_neg h3, if_neg (by omega)]
      · simp only [zB, dveccpsc]
        rw [if_neg (by omega)]
        exact congrFun h2 c
  have := key d.s le_rfl
  rwa [if_pos i.isLt] at this

end Acados.Irk
