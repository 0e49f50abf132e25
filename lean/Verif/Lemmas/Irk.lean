import Verif.Spec.Irk
import Verif.Lemmas.Gnsf
import Mathlib.Tactic.LinearCombination
import Mathlib.Tactic.Linarith
/-! Helper lemmas for the implicit Runge-Kutta integrator. -/
namespace Acados.Irk
open Matrix
open Acados.Gnsf (Lu IsLu solveV solveM solveT)
set_option linter.unusedSectionVars false
variable {K : Type*} [Field K] [LinearOrder K]

theorem loop_zero {α : Type*} (f : Nat → α → α) (a : α) : loop 0 f a = a := rfl
theorem loop_succ {α : Type*} (n : Nat) (f : Nat → α → α) (a : α) : loop (n + 1) f a = f n (loop n f a) := by
  simp [loop, List.range_succ, List.foldl_append]

/-- window of an array -/
def blk {p : Nat} (n off : Nat) (v : Fin p → K) : Fin n → K := fun c => rd v (off + c.val)

theorem rd_lt {n : Nat} (v : Fin n → K) (i : Nat) (h : i < n) : rd v i = v ⟨i, h⟩ := by simp [rd, h]

theorem sum_window {q : Nat} (n bj : Nat) (hq : bj + n ≤ q) (g : Nat → K) (v : Fin q → K) :
    (∑ c : Fin q, (if bj ≤ c.val ∧ c.val < bj + n then g (c.val - bj) else 0) * v c)
      = ∑ l : Fin n, g l.val * rd v (bj + l.val) := by
  have e1 : (∑ c : Fin q, (if bj ≤ c.val ∧ c.val < bj + n then g (c.val - bj) else 0) * v c)
      = ∑ c ∈ Finset.range q, (if bj ≤ c ∧ c < bj + n then g (c - bj) else 0) * rd v c := by
    rw [Finset.sum_range]
    refine Finset.sum_congr rfl fun c _ => ?_
    rw [rd_lt v c.val c.isLt]
  rw [e1]
  have e2 : (∑ l : Fin n, g l.val * rd v (bj + l.val)) = ∑ l ∈ Finset.range n, g l * rd v (bj + l) := by
    rw [Finset.sum_range]
  rw [e2]
  have hs : (Finset.range n).image (fun l => bj + l) ⊆ Finset.range q := by
    intro a ha
    simp only [Finset.mem_image, Finset.mem_range] at ha ⊢
    obtain ⟨l, hl, rfl⟩ := ha; omega
  rw [← Finset.sum_subset hs]
  · rw [Finset.sum_image (by intro a _ b _ h; simpa using h)]
    refine Finset.sum_congr rfl fun l hl => ?_
    have := Finset.mem_range.mp hl
    rw [if_pos ⟨by omega, by omega⟩, Nat.add_sub_cancel_left]
  · intro c _ hc
    have : ¬ (bj ≤ c ∧ c < bj + n) := by
      rintro ⟨h1, h2⟩
      exact hc (Finset.mem_image.mpr ⟨c - bj, Finset.mem_range.mpr (by omega), by omega⟩)
    rw [if_neg this, zero_mul]

theorem gead_mulVec {m n p q : Nat} (α : K) (A : Matrix (Fin m) (Fin n) K) (B : Matrix (Fin p) (Fin q) K)
    (bi bj : Nat) (hq : bj + n ≤ q) (v : Fin q → K) (r : Fin p) :
    (gead m n α A 0 0 B bi bj *ᵥ v) r
      = (B *ᵥ v) r + if h : bi ≤ r.val ∧ r.val < bi + m
          then α * (A *ᵥ blk n bj v) ⟨r.val - bi, by omega⟩ else 0 := by
  by_cases hr : bi ≤ r.val ∧ r.val < bi + m
  · rw [dif_pos hr]
    simp only [mulVec, dotProduct]
    have e : ∀ c : Fin q, gead m n α A 0 0 B bi bj r c * v c = B r c * v c
        + (if bj ≤ c.val ∧ c.val < bj + n then α * rd2 A (r.val - bi) (c.val - bj) else 0) * v c := by
      intro c
      by_cases hc : bj ≤ c.val ∧ c.val < bj + n
      · simp only [gead, hr, hc, and_self, if_true, Nat.zero_add]; ring
      · simp only [gead, hc, and_false, if_false]; ring
    rw [Finset.sum_congr rfl fun c _ => e c, Finset.sum_add_distrib]
    rw [sum_window n bj hq (fun l => α * rd2 A (r.val - bi) l) v, Finset.mul_sum]
    congr 1
    refine Finset.sum_congr rfl fun l _ => ?_
    have h1 : r.val - bi < m := by omega
    simp only [rd2, h1, l.isLt, and_self, dif_pos, blk]
    ring
  · rw [dif_neg hr, add_zero]
    simp only [mulVec, dotProduct]
    refine Finset.sum_congr rfl fun c _ => ?_
    simp only [gead, hr, false_and, if_false]

/-- row blocks of a stack with blocks of height `m` -/
theorem gead_blk {m n s q : Nat} (α : K) (A : Matrix (Fin m) (Fin n) K) (B : Matrix (Fin (m * s)) (Fin q) K)
    (i i' : Nat) (hi : i < s) (bj : Nat) (hq : bj + n ≤ q) (v : Fin q → K) :
    blk m (i * m) (gead m n α A 0 0 B (i' * m) bj *ᵥ v)
      = blk m (i * m) (B *ᵥ v) + if i = i' then α • (A *ᵥ blk n bj v) else 0 := by
  funext r
  have hlt : i * m + r.val < m * s := by
    have : (i + 1) * m ≤ s * m := Nat.mul_le_mul_right _ hi
    have h2 := r.isLt
    rw [Nat.mul_comm m s]; nlinarith
  simp only [blk, Pi.add_apply, rd_lt _ _ hlt, gead_mulVec α A B (i' * m) bj hq v]
  congr 1
  by_cases e : i = i'
  · subst e
    rw [dif_pos ⟨by simp, by simp⟩, if_pos rfl]
    simp only [Nat.add_sub_cancel_left, Pi.smul_apply, smul_eq_mul]
  · rw [if_neg e, dif_neg]
    · rfl
    · rintro ⟨h1, h2⟩
      have h3 := r.isLt
      rcases Nat.lt_or_gt_of_ne e with hl | hl
      · have : (i + 1) * m ≤ i' * m := Nat.mul_le_mul_right _ hl
        rw [Nat.add_mul] at this; omega
      · have : (i' + 1) * m ≤ i * m := Nat.mul_le_mul_right _ hl
        rw [Nat.add_mul] at this; omega

variable {d : Dims}

/-- residual block -/
abbrev rB (d : Dims) (v : Fin (nK d) → K) (i : Nat) : Fin (d.nx + d.nz) → K :=
  blk (d.nx + d.nz) (i * (d.nx + d.nz)) v

theorem nK_split (d : Dims) : nK d = d.s * d.nx + d.s * d.nz := by unfold nK; ring

theorem kB_blk (v : Fin (nK d) → K) (i : Fin d.s) : kB d v i = blk d.nx (i.val * d.nx) v := by
  funext c
  have h1 : (i.val + 1) * d.nx ≤ d.s * d.nx := Nat.mul_le_mul_right _ i.isLt
  rw [Nat.add_mul] at h1
  have := nK_split d
  simp only [kB, blk]
  rw [rd_lt]

theorem zB_blk (v : Fin (nK d) → K) (i : Fin d.s) :
    zB d v i = blk d.nz (d.s * d.nx + i.val * d.nz) v := by
  funext c
  have h1 : (i.val + 1) * d.nz ≤ d.s * d.nz := Nat.mul_le_mul_right _ i.isLt
  rw [Nat.add_mul] at h1
  have := nK_split d
  simp only [zB, blk]
  rw [rd_lt]

theorem kin_eq (v : Fin (nK d) → K) (i : Fin d.s) : kin d v i = kB d v i := by rw [kB_blk]; rfl
theorem zin_eq (v : Fin (nK d) → K) (i : Fin d.s) : zin d v i = zB d v i := by rw [zB_blk]; rfl

/-- a vector is determined by its residual blocks -/
theorem rB_ext {v w : Fin (nK d) → K} (h : ∀ i : Fin d.s, rB d v i = rB d w i) : v = w := by
  funext a
  have hm : 0 < d.nx + d.nz := by
    rcases Nat.eq_zero_or_pos (d.nx + d.nz) with h0 | h0
    · have := a.isLt; simp [nK, h0] at this
    · exact h0
  have hi : a.val / (d.nx + d.nz) < d.s := Nat.div_lt_of_lt_mul a.isLt
  have := congrFun (h ⟨_, hi⟩) ⟨a.val % (d.nx + d.nz), Nat.mod_lt _ hm⟩
  have e : a.val / (d.nx + d.nz) * (d.nx + d.nz) + a.val % (d.nx + d.nz) = a.val := by
    rw [Nat.mul_comm]; exact Nat.div_add_mod _ _
  simp only [rB, blk, e] at this
  rwa [rd_lt _ _ a.isLt, rd_lt _ _ a.isLt] at this

/-- a vector is determined by its stage blocks -/
theorem kz_ext {v w : Fin (nK d) → K} (hk : kB d v = kB d w) (hz : zB d v = zB d w) : v = w := by
  funext a
  have hs := nK_split d
  by_cases ha : a.val < d.s * d.nx
  · have hm : 0 < d.nx := by
      rcases Nat.eq_zero_or_pos d.nx with h0 | h0
      · simp [h0] at ha
      · exact h0
    have hi : a.val / d.nx < d.s := Nat.div_lt_of_lt_mul (by rwa [Nat.mul_comm])
    have := congrFun (congrFun hk ⟨_, hi⟩) ⟨a.val % d.nx, Nat.mod_lt _ hm⟩
    have e : a.val / d.nx * d.nx + a.val % d.nx = a.val := by rw [Nat.mul_comm]; exact Nat.div_add_mod _ _
    simpa only [kB, e] using this
  · have hb : a.val - d.s * d.nx < d.s * d.nz := by have := a.isLt; omega
    have hm : 0 < d.nz := by
      rcases Nat.eq_zero_or_pos d.nz with h0 | h0
      · simp [h0] at hb
      · exact h0
    have hi : (a.val - d.s * d.nx) / d.nz < d.s :=
      Nat.div_lt_of_lt_mul (by rwa [Nat.mul_comm d.nz d.s])
    have := congrFun (congrFun hz ⟨_, hi⟩) ⟨(a.val - d.s * d.nx) % d.nz, Nat.mod_lt _ hm⟩
    have e : d.s * d.nx + (a.val - d.s * d.nx) / d.nz * d.nz + (a.val - d.s * d.nx) % d.nz = a.val := by
      have := Nat.div_add_mod (a.val - d.s * d.nx) d.nz
      rw [Nat.mul_comm] at this
      omega
    simpa only [zB, e] using this

/-- the stage vector with given blocks -/
def join (d : Dims) (k : Fin d.s → Fin d.nx → K) (z : Fin d.s → Fin d.nz → K) : Fin (nK d) → K := fun a =>
  if h : a.val < d.s * d.nx then
    k ⟨a.val / d.nx, Nat.div_lt_of_lt_mul (by rwa [Nat.mul_comm])⟩
      ⟨a.val % d.nx, Nat.mod_lt _ (by
        rcases Nat.eq_zero_or_pos d.nx with h0 | h0
        · simp [h0] at h
        · exact h0)⟩
  else
    z ⟨(a.val - d.s * d.nx) / d.nz, Nat.div_lt_of_lt_mul (by
        have := a.isLt; have := nK_split d; rw [Nat.mul_comm d.nz d.s]; omega)⟩
      ⟨(a.val - d.s * d.nx) % d.nz, Nat.mod_lt _ (by
        rcases Nat.eq_zero_or_pos d.nz with h0 | h0
        · have := a.isLt; have := nK_split d; simp [h0] at this; omega
        · exact h0)⟩

theorem kB_join (k : Fin d.s → Fin d.nx → K) (z : Fin d.s → Fin d.nz → K) : kB d (join d k z) = k := by
  funext i c
  have h1 : (i.val + 1) * d.nx ≤ d.s * d.nx := Nat.mul_le_mul_right _ i.isLt
  rw [Nat.add_mul] at h1
  have hc := c.isLt
  simp only [kB, join]
  rw [dif_pos (by omega)]
  congr 1
  · apply Fin.ext
    change (i.val * d.nx + c.val) / d.nx = i.val
    rw [Nat.mul_comm, Nat.mul_add_div (by omega), Nat.div_eq_of_lt hc, Nat.add_zero]
  · apply Fin.ext
    change (i.val * d.nx + c.val) % d.nx = c.val
    rw [Nat.mul_comm, Nat.mul_add_mod, Nat.mod_eq_of_lt hc]

theorem zB_join (k : Fin d.s → Fin d.nx → K) (z : Fin d.s → Fin d.nz → K) : zB d (join d k z) = z := by
  funext i c
  have h1 : (i.val + 1) * d.nz ≤ d.s * d.nz := Nat.mul_le_mul_right _ i.isLt
  rw [Nat.add_mul] at h1
  have hc := c.isLt
  simp only [zB, join]
  rw [dif_neg (by omega)]
  have e : d.s * d.nx + i.val * d.nz + c.val - d.s * d.nx = d.nz * i.val + c.val := by
    rw [Nat.mul_comm d.nz]; omega
  congr 1
  · apply Fin.ext
    change (d.s * d.nx + i.val * d.nz + c.val - d.s * d.nx) / d.nz = i.val
    rw [e, Nat.mul_add_div (by omega), Nat.div_eq_of_lt hc, Nat.add_zero]
  · apply Fin.ext
    change (d.s * d.nx + i.val * d.nz + c.val - d.s * d.nx) % d.nz = c.val
    rw [e, Nat.mul_add_mod, Nat.mod_eq_of_lt hc]

theorem kB_sub (v w : Fin (nK d) → K) : kB d (v - w) = kB d v - kB d w := rfl
theorem zB_sub (v w : Fin (nK d) → K) : zB d (v - w) = zB d v - zB d w := rfl

theorem blk_add {p : Nat} (n off : Nat) (v w : Fin p → K) : blk n off (v + w) = blk n off v + blk n off w := by
  funext c; simp only [blk, rd, Pi.add_apply]; split <;> simp
theorem blk_zero {p : Nat} (n off : Nat) : blk n off (0 : Fin p → K) = 0 := by
  funext c; simp [blk, rd]

/-- `dveccp`/`pack` of a block -/
theorem dveccp_blk {m s : Nat} (x : Fin m → K) (y : Fin (m * s) → K) (i i' : Nat) (hi : i < s) :
    blk m (i * m) (dveccp m x 0 y (i' * m)) = if i = i' then x else blk m (i * m) y := by
  funext r
  have hlt : i * m + r.val < m * s := by
    have : (i + 1) * m ≤ s * m := Nat.mul_le_mul_right _ hi
    have h2 := r.isLt
    rw [Nat.mul_comm m s]; nlinarith
  simp only [blk, rd_lt _ _ hlt, dveccp]
  by_cases e : i = i'
  · subst e
    rw [if_pos ⟨by simp, by simp⟩, if_pos rfl, rd_lt _ _ (by omega)]
    congr 1; apply Fin.ext; simp
  · rw [if_neg e, if_neg]
    · simp only [blk, rd_lt _ _ hlt]
    rintro ⟨h1, h2⟩
    have h3 := r.isLt
    rcases Nat.lt_or_gt_of_ne e with hl | hl
    · have : (i + 1) * m ≤ i' * m := Nat.mul_le_mul_right _ hl
      rw [Nat.add_mul] at this; omega
    · have : (i' + 1) * m ≤ i * m := Nat.mul_le_mul_right _ hl
      rw [Nat.add_mul] at this; omega

theorem daxpy_apply {p q : Nat} (α : K) (x : Fin p → K) (xi : Nat) (y : Fin q → K) (c : Fin q) :
    daxpy q α x xi y 0 c = y c + α * rd x (xi + c.val) := by
  have : (0 ≤ c.val ∧ c.val < 0 + q) := ⟨Nat.zero_le _, by simp⟩
  simp only [daxpy, if_pos this, Nat.sub_zero]

theorem loop_daxpy {p q : Nat} (n : Nat) (α : Nat → K) (x : Fin p → K) (xi : Nat → Nat) (y : Fin q → K)
    (c : Fin q) :
    loop n (fun j y => daxpy q (α j) x (xi j) y 0) y c = y c + ∑ j ∈ Finset.range n, α j * rd x (xi j + c.val) := by
  induction n with
  | zero => simp [loop_zero]
  | succ n ih => rw [loop_succ, daxpy_apply, ih, Finset.sum_range_succ]; ring

section Step
variable (o : Opts K) (h t0 : K) (e : Ext d K) (u : Fin d.nu → K)

theorem xt_eq (xn : Fin d.nx → K) (k : Fin (nK d) → K) (i : Fin d.s) :
    xt d o h xn k i = stageOf o h xn (kB d k) i := by
  funext c
  simp only [xt, stageOf]
  rw [loop_daxpy, Finset.sum_range, Finset.mul_sum]
  congr 1
  refine Finset.sum_congr rfl fun j _ => ?_
  rw [kB_blk]; simp only [blk]; ring

theorem nextX_eq (xn : Fin d.nx → K) (k : Fin (nK d) → K) : nextX d o h xn k = nextOf o h xn (kB d k) := by
  funext c
  simp only [nextX, nextOf]
  rw [loop_daxpy, Finset.sum_range, Finset.mul_sum]
  congr 1
  refine Finset.sum_congr rfl fun j _ => ?_
  rw [kB_blk]; simp only [blk]; ring

/-- the point of a step -/
def ptOf (d : Dims) (ss : Nat) (h t0 : K) (xn : Fin d.nx → K) (k : Fin (nK d) → K) : Pt d K :=
  ⟨xn, kB d k, zB d k, t0 + (ss : K) * h⟩

theorem at_eq {α : Type*} (ss : Nat) (xn : Fin d.nx → K) (k : Fin (nK d) → K) (i : Fin d.s)
    (F : (Fin d.nx → K) → (Fin d.nx → K) → (Fin d.nu → K) → (Fin d.nz → K) → K → α) :
    F (xt d o h xn k i) (kin d k i) u (zin d k i) (tcur o h t0 ss i)
      = atStage o h u (ptOf d ss h t0 xn k) i F := by
  rw [xt_eq, kin_eq, zin_eq]; rfl

theorem rG_blk (ss : Nat) (xn : Fin d.nx → K) (k w : Fin (nK d) → K) (i : Fin d.s) :
    rB d (rG d o h t0 e u ss xn k w) i = atStage o h u (ptOf d ss h t0 xn k) i e.f := by
  have : ∀ n, n ≤ d.s → rB d (loop n (fun ii r => dveccp (d.nx + d.nz)
      (e.f (xt d o h xn k ii) (kin d k ii) u (zin d k ii) (tcur o h t0 ss ii)) 0 r (ii * (d.nx + d.nz))) w) i
      = if i.val < n then atStage o h u (ptOf d ss h t0 xn k) i e.f else rB d w i := by
    intro n
    induction n with
    | zero => intro _; simp [loop_zero]
    | succ n ih =>
      intro hn
      rw [loop_succ]
      simp only [rB] at ih ⊢
      rw [dveccp_blk _ _ _ _ i.isLt]
      by_cases hi : i.val = n
      · rw [if_pos hi, if_pos (by omega), ← hi, at_eq o h t0 u ss xn k i e.f]
      · rw [if_neg hi, ih (by omega)]
        by_cases h2 : i.val < n
        · rw [if_pos h2, if_pos (by omega)]
        · rw [if_neg h2, if_neg (by omega)]
  simpa [rG, i.isLt] using this d.s le_rfl

/-- one row of the loop building `dG_dK` -/
theorem dGdK_inner (i ii : Fin d.s) (a : Nat → K) (fx fk : Matrix (Fin (d.nx + d.nz)) (Fin d.nx) K)
    (fz : Matrix (Fin (d.nx + d.nz)) (Fin d.nz) K) (M : Matrix (Fin (nK d)) (Fin (nK d)) K)
    (v : Fin (nK d) → K) (n : Nat) (hn : n ≤ d.s) :
    rB d (loop n (fun jj M =>
      let M := gead (d.nx + d.nz) d.nx (a jj) fx 0 0 M (ii * (d.nx + d.nz)) (jj * d.nx)
      if jj = ii then
        gead (d.nx + d.nz) d.nz 1 fz 0 0
          (gead (d.nx + d.nz) d.nx 1 fk 0 0 M (ii * (d.nx + d.nz)) (jj * d.nx))
          (ii * (d.nx + d.nz)) (d.nx * d.s + jj * d.nz)
      else M) M *ᵥ v) i
    = rB d (M *ᵥ v) i + if i = ii then
        (∑ j ∈ Finset.range n, a j • (fx *ᵥ blk d.nx (j * d.nx) v))
        + (if ii.val < n then fk *ᵥ kB d v ii + fz *ᵥ zB d v ii else 0) else 0 := by
  induction n with
  | zero => simp [loop_zero]
  | succ n ih =>
    have ih := ih (by omega)
    rw [loop_succ]
    generalize (loop n _ M) = X at ih ⊢
    have hs := nK_split d
    have h1 : (n + 1) * d.nx ≤ d.s * d.nx := Nat.mul_le_mul_right _ hn
    have h2 : (n + 1) * d.nz ≤ d.s * d.nz := Nat.mul_le_mul_right _ hn
    rw [Nat.add_mul] at h1 h2
    have hcomm := Nat.mul_comm d.nx d.s
    have q1 : n * d.nx + d.nx ≤ nK d := by omega
    have q2 : d.nx * d.s + n * d.nz + d.nz ≤ nK d := by omega
    have hii : (i.val = ii.val) = (i = ii) := propext ⟨Fin.ext, fun h => h ▸ rfl⟩
    by_cases hd : n = ii.val
    · simp only [if_pos hd]
      simp only [rB] at ih ⊢
      rw [gead_blk (s := d.s) 1 fz _ i ii i.isLt _ q2, gead_blk (s := d.s) 1 fk _ i ii i.isLt _ q1,
        gead_blk (s := d.s) (a n) fx _ i ii i.isLt _ q1, ih]
      simp only [hii]
      by_cases hi : i = ii
      · simp only [if_pos hi, Finset.sum_range_succ]
        rw [if_neg (c := ii.val < n) (by omega), if_pos (c := ii.val < n + 1) (by omega), kB_blk, zB_blk, ← hd,
          Nat.mul_comm d.s d.nx, one_smul, one_smul]
        abel
      · simp only [if_neg hi, add_zero]
    · simp only [if_neg hd]
      simp only [rB] at ih ⊢
      rw [gead_blk (s := d.s) (a n) fx _ i ii i.isLt _ q1, ih]
      simp only [hii]
      by_cases hi : i = ii
      · simp only [if_pos hi, Finset.sum_range_succ]
        by_cases h3 : ii.val < n
        · rw [if_pos h3, if_pos (c := ii.val < n + 1) (by omega)]; abel
        · rw [if_neg h3, if_neg (c := ii.val < n + 1) (by omega)]; abel
      · simp only [if_neg hi, add_zero]

theorem tangent_zero_stage (fx : Matrix (Fin (d.nx + d.nz)) (Fin d.nx) K) (v : Fin (nK d) → K) (i : Fin d.s) :
    (∑ j ∈ Finset.range d.s, (o.A_mat (i.val + d.s * j) * h) • (fx *ᵥ blk d.nx (j * d.nx) v))
      = fx *ᵥ stageOf o h 0 (kB d v) i := by
  have e1 : stageOf o h 0 (kB d v) i
      = ∑ j ∈ Finset.range d.s, (o.A_mat (i.val + d.s * j) * h) • blk d.nx (j * d.nx) v := by
    funext c
    simp only [stageOf, Pi.zero_apply, zero_add, Finset.sum_apply, Pi.smul_apply, smul_eq_mul]
    rw [Finset.sum_range, Finset.mul_sum]
    refine Finset.sum_congr rfl fun j _ => ?_
    rw [kB_blk]; ring
  rw [e1, Matrix.mulVec_sum]
  refine Finset.sum_congr rfl fun j _ => ?_
  rw [Matrix.mulVec_smul]

/-- `dG_dK` is the derivative of the stage equations -/
theorem dGdK_mulVec (ss : Nat) (xn : Fin d.nx → K) (k v : Fin (nK d) → K) (i : Fin d.s) :
    rB d (dGdK d o h t0 e u ss xn k *ᵥ v) i
      = tangent o h e u (ptOf d ss h t0 xn k) 0 0 (kB d v) (zB d v) i := by
  have key : ∀ n, n ≤ d.s → rB d (loop n (fun ii M =>
    let fx := e.fx (xt d o h xn k ii) (kin d k ii) u (zin d k ii) (tcur o h t0 ss ii)
    let fk := e.fk (xt d o h xn k ii) (kin d k ii) u (zin d k ii) (tcur o h t0 ss ii)
    let fz := e.fz (xt d o h xn k ii) (kin d k ii) u (zin d k ii) (tcur o h t0 ss ii)
    loop d.s (fun jj M =>
      let M := gead (d.nx + d.nz) d.nx (o.A_mat (ii + d.s * jj) * h) fx 0 0 M (ii * (d.nx + d.nz)) (jj * d.nx)
      if jj = ii then
        gead (d.nx + d.nz) d.nz 1 fz 0 0
          (gead (d.nx + d.nz) d.nx 1 fk 0 0 M (ii * (d.nx + d.nz)) (jj * d.nx))
          (ii * (d.nx + d.nz)) (d.nx * d.s + jj * d.nz)
      else M) M) 0 *ᵥ v) i
      = if i.val < n then tangent o h e u (ptOf d ss h t0 xn k) 0 0 (kB d v) (zB d v) i else 0 := by
    intro n
    induction n with
    | zero => intro _; simp [loop_zero, rB, blk_zero]
    | succ n ih =>
      intro hn
      have ih := ih (by omega)
      rw [loop_succ]
      generalize (loop n _ (0 : Matrix (Fin (nK d)) (Fin (nK d)) K)) = X at ih ⊢
      have := dGdK_inner (d := d) i ⟨n, by omega⟩ (fun jj => o.A_mat (n + d.s * jj) * h)
        (e.fx (xt d o h xn k n) (kin d k n) u (zin d k n) (tcur o h t0 ss n))
        (e.fk (xt d o h xn k n) (kin d k n) u (zin d k n) (tcur o h t0 ss n))
        (e.fz (xt d o h xn k n) (kin d k n) u (zin d k n) (tcur o h t0 ss n)) X v d.s le_rfl
      refine this.trans ?_
      rw [ih]
      by_cases hi : i = ⟨n, by omega⟩
      · have hi' : i.val = n := by rw [hi]
        rw [if_neg (c := i.val < n) (by omega), if_pos hi, if_pos (c := i.val < n + 1) (by omega), zero_add]
        rw [if_pos (c := (⟨n, by omega⟩ : Fin d.s).val < d.s) (Fin.isLt _), ← hi, ← hi']
        rw [tangent_zero_stage o h, at_eq o h t0 u ss xn k i e.fx, at_eq o h t0 u ss xn k i e.fk,
          at_eq o h t0 u ss xn k i e.fz]
        simp only [tangent, Matrix.mulVec_zero, add_zero, add_assoc]
      · have hi' : i.val ≠ n := fun hh => hi (Fin.ext hh)
        rw [if_neg hi, add_zero]
        by_cases h2 : i.val < n
        · rw [if_pos h2, if_pos (by omega)]
        · rw [if_neg h2, if_neg (by omega)]
  have := key d.s le_rfl
  rw [if_pos i.isLt] at this
  exact this

end Step
end Acados.Irk
