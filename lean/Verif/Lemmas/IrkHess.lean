import Verif.Lemmas.IrkSens
/-! Helper lemmas for the Hessian of the implicit Runge-Kutta integrator. -/
namespace Acados.Irk
open Matrix
open Acados.Gnsf (Lu IsLu solveV solveM solveT)
set_option linter.unusedSectionVars false
variable {K : Type*} [Field K] [LinearOrder K] {d : Dims}

theorem rowloop_in {n p : Nat} (b : Nat → K) (D : Matrix (Fin (nK d)) (Fin n) K) (M : Matrix (Fin p) (Fin n) K)
    (m : Nat) (r : Fin p) (c : Fin n) (hr : r.val < d.nx) :
    loop m (fun jj M => gead d.nx n (b jj) D (jj * d.nx) 0 M 0 0) M r c
      = M r c + ∑ j ∈ Finset.range m, b j * rd2 D (j * d.nx + r.val) c.val := by
  induction m with
  | zero => simp [loop_zero]
  | succ m ih =>
    rw [loop_succ, Finset.sum_range_succ, ← add_assoc, ← ih]
    generalize loop m _ M = X
    simp only [gead]
    rw [if_pos ⟨⟨Nat.zero_le _, by omega⟩, Nat.zero_le _, by simp⟩, Nat.sub_zero, Nat.sub_zero, Nat.zero_add]

theorem rowloop_out {n p : Nat} (b : Nat → K) (D : Matrix (Fin (nK d)) (Fin n) K) (M : Matrix (Fin p) (Fin n) K)
    (m : Nat) (r : Fin p) (c : Fin n) (hr : ¬ r.val < d.nx) :
    loop m (fun jj M => gead d.nx n (b jj) D (jj * d.nx) 0 M 0 0) M r c = M r c := by
  induction m with
  | zero => simp [loop_zero]
  | succ m ih =>
    rw [loop_succ, ← ih]
    generalize loop m _ M = X
    simp only [gead]
    rw [if_neg (by omega)]

theorem rd2_dot {p n : Nat} (D : Matrix (Fin p) (Fin n) K) (v : Fin n → K) (ρ : Nat) :
    ∑ c : Fin n, rd2 D ρ c.val * v c = rd (D *ᵥ v) ρ := by
  by_cases h : ρ < p
  · rw [rd_lt _ _ h]
    simp only [mulVec, dotProduct]
    refine Finset.sum_congr rfl fun c _ => ?_
    rw [rd2_lt _ _ _ h c.isLt]
  · simp [rd2, rd, h]

theorem rd_neg {p : Nat} (v : Fin p → K) (i : Nat) : rd (-v) i = - rd v i := by
  simp only [rd, Pi.neg_apply]; split <;> simp

variable (o : Opts K) (h : K)

/-- rows of `dxkzu_dw0` that belong to the control: `[0, I]` -/
theorem dxkzu_u (D : Matrix (Fin (nK d)) (Fin (d.nx + d.nu)) K) (S : Matrix (Fin d.nx) (Fin (d.nx + d.nu)) K)
    (ii : Nat) (w : Matrix (Fin (2 * d.nx + d.nz + d.nu)) (Fin (d.nx + d.nu)) K)
    (r : Fin (2 * d.nx + d.nz + d.nu)) (c : Fin (d.nx + d.nu)) (hr : 2 * d.nx + d.nz ≤ r.val) :
    dxkzu d o h D S ii w r c = if c.val = d.nx + (r.val - (2 * d.nx + d.nz)) then 1 else 0 := by
  simp only [dxkzu, hr, true_and, if_true]

theorem dxkzu_mulVec (D : Matrix (Fin (nK d)) (Fin (d.nx + d.nu)) K)
    (S : Matrix (Fin d.nx) (Fin (d.nx + d.nu)) K) (i : Fin d.s)
    (w : Matrix (Fin (2 * d.nx + d.nz + d.nu)) (Fin (d.nx + d.nu)) K) (v : Fin (d.nx + d.nu) → K) :
    dxkzu d o h D S i w *ᵥ v
      = cat4 (stageOf o h (S *ᵥ v) (kB d (-(D *ᵥ v))) i) (kB d (-(D *ᵥ v)) i) (zB d (-(D *ᵥ v)) i) (sndP v) := by
  funext r
  by_cases h1 : r.val < d.nx
  · have e : ∀ c, dxkzu d o h D S i w r c = S ⟨r.val, h1⟩ c
        + ∑ j ∈ Finset.range d.s, -(o.A_mat (i.val + d.s * j) * h) * rd2 D (j * d.nx + r.val) c.val := by
      intro c
      simp only [dxkzu]
      rw [if_neg (by omega), if_neg (by omega), gecpsc_apply_out _ _ _ _ _ _ _ _ _ _ _ (by omega),
        gecpsc_apply_out _ _ _ _ _ _ _ _ _ _ _ (by omega), rowloop_in _ _ _ _ _ _ h1,
        gecpsc_apply_in _ _ _ _ _ _ _ _ _ _ _ ⟨Nat.zero_le _, by omega⟩ ⟨Nat.zero_le _, by simp⟩, one_mul,
        rd2_lt _ _ _ (by omega) (by simp)]
      congr 1
      congr 1 <;> apply Fin.ext <;> simp
    have e2 : (dxkzu d o h D S i w *ᵥ v) r = (S *ᵥ v) ⟨r.val, h1⟩
        + ∑ j ∈ Finset.range d.s, -(o.A_mat (i.val + d.s * j) * h) * rd (D *ᵥ v) (j * d.nx + r.val) := by
      have : ∀ j, -(o.A_mat (i.val + d.s * j) * h) * rd (D *ᵥ v) (j * d.nx + r.val)
          = ∑ c, -(o.A_mat (i.val + d.s * j) * h) * rd2 D (j * d.nx + r.val) c.val * v c := by
        intro j
        rw [← rd2_dot, Finset.mul_sum]
        exact Finset.sum_congr rfl fun c _ => by ring
      simp only [this]
      rw [Finset.sum_comm]
      simp only [mulVec, dotProduct, e]
      rw [← Finset.sum_add_distrib]
      refine Finset.sum_congr rfl fun c _ => ?_
      rw [add_mul, Finset.sum_mul]
    rw [e2]
    simp only [cat4, dif_pos h1, stageOf]
    congr 1
    rw [Finset.sum_range, Finset.mul_sum]
    refine Finset.sum_congr rfl fun j _ => ?_
    rw [kB_blk]; simp only [blk, rd_neg]; ring
  · by_cases h2 : r.val < 2 * d.nx
    · have e : ∀ c, dxkzu d o h D S i w r c = - rd2 D (i.val * d.nx + (r.val - d.nx)) c.val := by
        intro c
        simp only [dxkzu]
        rw [if_neg (by omega), if_neg (by omega), gecpsc_apply_out _ _ _ _ _ _ _ _ _ _ _ (by omega),
          gecpsc_apply_in _ _ _ _ _ _ _ _ _ _ _ ⟨by omega, by omega⟩ ⟨Nat.zero_le _, by simp⟩]
        simp
      simp only [mulVec, dotProduct, e, cat4, dif_neg h1, dif_pos h2]
      rw [kB_blk]
      simp only [blk, rd_neg]
      rw [← rd2_dot, ← Finset.sum_neg_distrib]
      exact Finset.sum_congr rfl fun c _ => by ring
    · by_cases h3 : r.val < 2 * d.nx + d.nz
      · have e : ∀ c, dxkzu d o h D S i w r c
            = - rd2 D (d.s * d.nx + i.val * d.nz + (r.val - 2 * d.nx)) c.val := by
          intro c
          simp only [dxkzu]
          rw [if_neg (by omega), if_neg (by omega),
            gecpsc_apply_in _ _ _ _ _ _ _ _ _ _ _ ⟨by omega, by omega⟩ ⟨Nat.zero_le _, by simp⟩]
          simp
        simp only [mulVec, dotProduct, e, cat4, dif_neg h1, dif_neg h2, dif_pos h3]
        rw [zB_blk]
        simp only [blk, rd_neg]
        rw [← rd2_dot, ← Finset.sum_neg_distrib]
        exact Finset.sum_congr rfl fun c _ => by ring
      · simp only [mulVec, dotProduct, cat4, dif_neg h1, dif_neg h2, dif_neg h3]
        have hlt : d.nx + (r.val - (2 * d.nx + d.nz)) < d.nx + d.nu := by have := r.isLt; omega
        rw [Finset.sum_eq_single ⟨d.nx + (r.val - (2 * d.nx + d.nz)), hlt⟩]
        · rw [dxkzu_u o h D S i w r _ (by omega), if_pos rfl, one_mul]; rfl
        · intro c _ hc
          rw [dxkzu_u o h D S i w r c (by omega), if_neg (fun hh => hc (Fin.ext hh)), zero_mul]
        · intro hc; exact absurd (Finset.mem_univ _) hc

/-- a sum against a column of `dxkzu_dw0`, using that the control rows are `[0, I]` -/
theorem sum_col {D : Matrix (Fin (2 * d.nx + d.nz + d.nu)) (Fin (d.nx + d.nu)) K}
    (hD : ∀ r c, 2 * d.nx + d.nz ≤ r.val → D r c = if c.val = d.nx + (r.val - (2 * d.nx + d.nz)) then 1 else 0)
    (G : Fin (2 * d.nx + d.nz + d.nu) → K) (c : Fin (d.nx + d.nu)) :
    ∑ l, G l * D l c = (∑ l ∈ Finset.range (2 * d.nx + d.nz), rd G l * rd2 D l c.val)
      + if d.nx ≤ c.val then rd G (2 * d.nx + d.nz + (c.val - d.nx)) else 0 := by
  rw [Fin.sum_univ_add, Finset.sum_range]
  congr 1
  · refine Finset.sum_congr rfl fun l _ => ?_
    rw [rd_lt _ _ (by have := l.isLt; omega), rd2_lt _ _ _ (by have := l.isLt; omega) c.isLt]
    rfl
  · by_cases hc : d.nx ≤ c.val
    · rw [if_pos hc]
      have hlt : c.val - d.nx < d.nu := by have := c.isLt; omega
      rw [Finset.sum_eq_single ⟨c.val - d.nx, hlt⟩]
      · rw [hD _ _ (by simp), if_pos (by simp; omega), mul_one, rd_lt _ _ (by omega)]
        congr 1
      · intro l _ hl
        rw [hD _ _ (by simp), if_neg, mul_zero]
        intro hh
        apply hl
        apply Fin.ext
        simp at hh ⊢
        omega
      · intro hh; exact absurd (Finset.mem_univ _) hh
    · rw [if_neg hc]
      refine Finset.sum_eq_zero fun l _ => ?_
      rw [hD _ _ (by simp), if_neg (by simp; omega), mul_zero]

theorem rd2_row {p n : Nat} (F : Matrix (Fin p) (Fin n) K) (r : Fin p) (l : Nat) :
    rd2 F r.val l = rd (fun c => F r c) l := by
  by_cases h : l < n
  · rw [rd2_lt _ _ _ r.isLt h, rd_lt _ _ h]
  · simp [rd2, rd, h]

/-- the upper triangle of one Hessian contribution -/
theorem hessStage_upper (F : Matrix (Fin (2 * d.nx + d.nz + d.nu)) (Fin (2 * d.nx + d.nz + d.nu)) K)
    {D : Matrix (Fin (2 * d.nx + d.nz + d.nu)) (Fin (d.nx + d.nu)) K}
    (hD : ∀ r c, 2 * d.nx + d.nz ≤ r.val → D r c = if c.val = d.nx + (r.val - (2 * d.nx + d.nz)) then 1 else 0)
    (H : Matrix (Fin (d.nx + d.nu)) (Fin (d.nx + d.nu)) K) (i j : Fin (d.nx + d.nu)) (hij : i.val ≤ j.val) :
    hessStage d F D H i j = H i j + (Dᵀ * (F * D)) i j := by
  have hT : gead (2 * d.nx + d.nz + d.nu) d.nu 1 F 0 (2 * d.nx + d.nz) (gemm (2 * d.nx + d.nz) F D) 0 d.nx = F * D := by
    ext r c
    have hs : (F * D) r c = ∑ l, F r l * D l c := rfl
    rw [hs, sum_col hD (fun l => F r l) c]
    simp only [gead]
    by_cases hc : d.nx ≤ c.val
    · rw [if_pos ⟨⟨Nat.zero_le _, by simp⟩, hc, by have := c.isLt; omega⟩, if_pos hc, one_mul]
      congr 1
      · simp only [gemm]
        refine Finset.sum_congr rfl fun l _ => ?_
        rw [rd2_row]
      · rw [show 0 + (r.val - 0) = r.val by omega, rd2_row]
    · rw [if_neg (by omega), if_neg hc, add_zero]
      simp only [gemm]
      refine Finset.sum_congr rfl fun l _ => ?_
      rw [rd2_row]
  have hcol : (Dᵀ * (F * D)) i j = ∑ l, (F * D) l j * D l i := by
    rw [Matrix.mul_apply]
    exact Finset.sum_congr rfl fun l _ => by rw [Matrix.transpose_apply]; ring
  have hrd : ∀ l : Nat, rd2 (F * D) l j.val = rd (fun l => (F * D) l j) l := by
    intro l
    by_cases h : l < 2 * d.nx + d.nz + d.nu
    · rw [rd2_lt _ _ _ h j.isLt, rd_lt _ _ h]
    · simp [rd2, rd, h]
  rw [hcol, sum_col hD (fun l => (F * D) l j) i]
  simp only [hessStage, hT, gead]
  have hsum : (∑ l ∈ Finset.range (2 * d.nx + d.nz), rd2 D l i.val * rd2 (F * D) l j.val)
      = ∑ l ∈ Finset.range (2 * d.nx + d.nz), rd (fun l => (F * D) l j) l * rd2 D l i.val :=
    Finset.sum_congr rfl fun l _ => by rw [hrd, mul_comm]
  by_cases hi : d.nx ≤ i.val
  · rw [if_pos ⟨⟨hi, by have := i.isLt; omega⟩, Nat.zero_le _, by simp⟩, if_pos hij, if_pos hi, one_mul, hsum]
    have e0 : 0 + (j.val - 0) = j.val := by omega
    rw [e0, hrd]; ring
  · rw [if_neg (by omega), if_pos hij, if_neg hi, hsum]; ring

/-- scalar product of residual vectors, block by block -/
theorem dot_rB (v w : Fin (nK d) → K) : v ⬝ᵥ w = ∑ i : Fin d.s, rB d v i ⬝ᵥ rB d w i := by
  have e1 : v ⬝ᵥ w = ∑ a ∈ Finset.range (nK d), rd v a * rd w a := by
    rw [Finset.sum_range]
    simp only [dotProduct]
    refine Finset.sum_congr rfl fun a _ => ?_
    rw [rd_lt _ _ a.isLt, rd_lt _ _ a.isLt]
  have e2 : ∀ F : Nat → K, ∑ a ∈ Finset.range (nK d), F a = ∑ a ∈ Finset.range (d.s * (d.nx + d.nz)), F a :=
    fun F => by rw [Nat.mul_comm]
  rw [e1, e2, sum_blocks, Finset.sum_range]
  refine Finset.sum_congr rfl fun i _ => ?_
  rw [Finset.sum_range]; rfl

end Acados.Irk
