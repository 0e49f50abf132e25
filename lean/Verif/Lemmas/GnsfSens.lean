import Verif.Props.Gnsf
import Verif.Model.GnsfSens
/-!
# GNSF sensitivities: helper lemmas
-/
namespace Acados.Gnsf
open Matrix
set_option linter.unusedSectionVars false
variable {K : Type*} [Field K] [LinearOrder K]
variable {d : Dims} {m : Mdl K} {o : Opts K} {dt : K} {f : Facts d K} {e : Ext d K}

theorem stages_addM {s : Nat} {μ ν : Type*} (B : Fin s → Matrix μ ν K) (D : Matrix μ ν K) :
    stages s (fun D ii => D + B ii) D = D + ∑ i, B i := by
  unfold stages
  have h : ∀ (l : List (Fin s)) (D : Matrix μ ν K),
      l.foldl (fun D ii => D + B ii) D = D + (l.map B).sum := by
    intro l
    induction l with
    | nil => intro a; simp
    | cons i l ih => intro a; rw [List.foldl_cons, ih, List.map_cons, List.sum_cons, add_assoc]
  rw [h, ← List.ofFn_eq_map, List.sum_ofFn]

theorem addStages1_mulVec {ν : Type*} [Fintype ν] (M : Matrix (K1 d) ν K) (D : Matrix (Fin d.nx1) ν K)
    (x : ν → K) (r) : (addStages1 d o dt M D *ᵥ x) r
      = (D *ᵥ x) r + ∑ i : Fin d.s, bdt o dt i.val * (M *ᵥ x) (i, r) := by
  unfold addStages1
  rw [stages_addM, Matrix.add_mulVec, Pi.add_apply]
  congr 1
  simp only [Matrix.mulVec, dotProduct, Matrix.sum_apply, Matrix.smul_apply, rowBlk, smul_eq_mul,
    Finset.sum_mul, Finset.mul_sum]
  rw [Finset.sum_comm]
  exact Finset.sum_congr rfl fun i _ => Finset.sum_congr rfl fun c _ => by ring

theorem addStages2_mulVec {ν : Type*} [Fintype ν] (M : Matrix (K2 d) ν K) (D : Matrix (Fin d.nx2) ν K)
    (x : ν → K) (r) : (addStages2 d o dt M D *ᵥ x) r
      = (D *ᵥ x) r + ∑ i : Fin d.s, bdt o dt i.val * (M *ᵥ x) (i, Sum.inl r) := by
  unfold addStages2
  rw [stages_addM, Matrix.add_mulVec, Pi.add_apply]
  congr 1
  simp only [Matrix.mulVec, dotProduct, Matrix.sum_apply, Matrix.smul_apply, rowBlk, smul_eq_mul,
    Finset.sum_mul, Finset.mul_sum, Matrix.submatrix_apply, id]
  rw [Finset.sum_comm]
  exact Finset.sum_congr rfl fun i _ => Finset.sum_congr rfl fun c _ => by ring

theorem setBlk_inner {s : Nat} {μ ν : Type*} (ii : Fin s) (B : Fin s → Matrix μ ν K) (l : List (Fin s))
    (M : Matrix (Fin s × μ) (Fin s × ν) K) (p q) :
    (l.foldl (fun M jj => setBlk ii jj (B jj) M) M) p q
      = if p.1 = ii ∧ q.1 ∈ l then B q.1 p.2 q.2 else M p q := by
  induction l generalizing M with
  | nil => simp
  | cons j l ih =>
    rw [List.foldl_cons, ih]
    by_cases hp : p.1 = ii
    · by_cases hq : q.1 ∈ l
      · simp [hp, hq]
      · by_cases hj : q.1 = j
        · simp [hp, hj, setBlk]
        · simp [hp, hq, hj, setBlk]
    · simp [hp, setBlk]

theorem JG2K1_apply (F : FloJac d K) (w : Matrix (K2 d) (K1 d) K) (p q) :
    JG2K1 d o dt F w p q = - Adt o dt (p.1.val + q.1.val * d.s) * F.x p.1 p.2 q.2
      + (-1) * (if p.1 = q.1 then F.k p.1 p.2 q.2 else 0) := by
  have h : ∀ (l : List (Fin d.s)), l.Nodup → ∀ w : Matrix (K2 d) (K1 d) K,
      (l.foldl (fun M ii => addBlk (-1) ii ii (F.k ii)
        (stages d.s (fun M jj => setBlk ii jj ((- Adt o dt (ii.val + jj.val * d.s)) • F.x ii) M) M)) w) p q
      = if p.1 ∈ l then - Adt o dt (p.1.val + q.1.val * d.s) * F.x p.1 p.2 q.2
          + (-1) * (if p.1 = q.1 then F.k p.1 p.2 q.2 else 0) else w p q := by
    intro l hl
    induction l with
    | nil => intro w; simp
    | cons i l ih =>
      intro w
      rw [List.foldl_cons, ih (List.nodup_cons.1 hl).2]
      have hi := (List.nodup_cons.1 hl).1
      by_cases hp : p.1 ∈ l
      · simp [hp]
      · rw [if_neg hp]
        unfold addBlk stages
        rw [setBlk_inner]
        by_cases h1 : p.1 = i
        · by_cases h2 : q.1 = i
          · simp [h1, h2]
          · have h3 : ¬ i = q.1 := fun h => h2 h.symm
            simp [h1, h2, h3]
        · simp [h1, hp]
  have := h (List.finRange d.s) (List.nodup_finRange _) w
  rw [if_pos (List.mem_finRange _)] at this
  exact this

theorem JG2K1_mulVec (F : FloJac d K) (w : Matrix (K2 d) (K1 d) K) (k : K1 d → K) (a) :
    (JG2K1 d o dt F w *ᵥ k) a
      = -(∑ i : Fin d.s, Adt o dt (i.val * d.s + a.1.val) * (F.x a.1 *ᵥ blk k i) a.2)
        - (F.k a.1 *ᵥ blk k a.1) a.2 := by
  have hd := diagM_mulVec (s := d.s) (F.k a.1) k a
  have e1 : (JG2K1 d o dt F w *ᵥ k) a
      = ∑ q : K1 d, (- Adt o dt (a.1.val + q.1.val * d.s) * F.x a.1 a.2 q.2 * k q)
        - ∑ q : K1 d, (if a.1 = q.1 then F.k a.1 a.2 q.2 else 0) * k q := by
    rw [← Finset.sum_sub_distrib]
    simp only [Matrix.mulVec, dotProduct, JG2K1_apply]
    exact Finset.sum_congr rfl fun q _ => by ring
  rw [e1, ← hd]
  congr 1
  · rw [Fintype.sum_prod_type, ← Finset.sum_neg_distrib]
    refine Finset.sum_congr rfl fun i _ => ?_
    simp only [Matrix.mulVec, dotProduct, Finset.mul_sum, ← Finset.sum_neg_distrib]
    refine Finset.sum_congr rfl fun c _ => ?_
    rw [show a.1.val + i.val * d.s = i.val * d.s + a.1.val by ring]; ring
  · simp only [Matrix.mulVec, dotProduct, diagM_apply]

theorem stackF_mulVec {s : Nat} {μ ν : Type*} [Fintype ν] (B : Fin s → Matrix μ ν K) (x : ν → K) (a) :
    (stackF s B *ᵥ x) a = (B a.1 *ᵥ x) a.2 := rfl

theorem rowBlk_mulVec {s : Nat} {μ ν : Type*} [Fintype ν] (M : Matrix (Fin s × μ) ν K) (x : ν → K) (i) :
    rowBlk i M *ᵥ x = blk (M *ᵥ x) i := rfl

/-- homogeneous form of the stage equations of the linear output system -/
theorem lin2_hom (k2 : K2 d → K) (x2 : Fin d.nx2 → K) (g : K2 d → K)
    (h : M2 d m o dt *ᵥ k2 = fun a => g a + (ALO d m *ᵥ x2) a.2) (j : Fin d.s) :
    ELO d m *ᵥ blk k2 j = ALO d m *ᵥ stageOf o dt x2 (fun i c => k2 (i, Sum.inl c)) j + blk g j := by
  ext r
  have h' := congrFun h (j, r)
  rw [M2_eq, kron_mulVec] at h'
  simp only [fromCols_mulVec, Pi.add_apply, neg_mul, Finset.sum_neg_distrib] at h'
  have e := mulVec_stageOf o dt (ALO d m) x2 (fun i c => k2 (i, Sum.inl c)) j r
  simp only [Pi.add_apply]
  rw [e]
  simp only [blk] at h' ⊢
  linear_combination h'

theorem stageOf_sub {s n : Nat} (x y : Fin n → K) (k l : Fin s → Fin n → K) (j : Fin s) :
    stageOf o dt (x - y) (fun i => k i - l i) j = stageOf o dt x k j - stageOf o dt y l j := by
  ext r
  simp only [stageOf, Pi.sub_apply, mul_sub, Finset.sum_sub_distrib]
  ring

/-- the maps without constants satisfy the homogeneous linear equations -/
theorem lin_hom (hf : Exact d m o dt f) (hp : f.qq1.perm = 1) (w : Stale d K)
    (x : Fin d.nx1 → K) (u : Fin d.nu → K) (v : VV d → K) (j : Fin d.s) (k : K1 d → K) (z : Z1 d → K)
    (hk : k = (precompute d m o dt f w).KKx *ᵥ x + (precompute d m o dt f w).KKv *ᵥ v
      + (precompute d m o dt f w).KKu *ᵥ u)
    (hz : z = (precompute d m o dt f w).ZZx *ᵥ x + (precompute d m o dt f w).ZZv *ᵥ v
      + (precompute d m o dt f w).ZZu *ᵥ u) :
    user m.E (d.nx1 + d.nz1) (row1 d) (row1 d) *ᵥ Sum.elim (blk k j) (blk z j)
      = user m.A (d.nx1 + d.nz1) (row1 d) Fin.val *ᵥ stageOf o dt x (blk k) j
        + user m.B (d.nx1 + d.nz1) (row1 d) Fin.val *ᵥ u
        + user m.C (d.nx1 + d.nz1) (row1 d) Fin.val *ᵥ blk v j := by
  have h1 := lin_core hf hp w x u v j
  have h0 := lin_core hf hp w 0 0 0 j
  have ek : k = K1val d (precompute d m o dt f w) x u v - K1val d (precompute d m o dt f w) 0 0 0 := by
    rw [hk]; simp only [K1val, Matrix.mulVec_zero]; abel
  have ez : z = Z1val d (precompute d m o dt f w) x u v - Z1val d (precompute d m o dt f w) 0 0 0 := by
    rw [hz]; simp only [Z1val, Matrix.mulVec_zero]; abel
  rw [ek, ez]
  generalize K1val d (precompute d m o dt f w) x u v = k1 at *
  generalize Z1val d (precompute d m o dt f w) x u v = z1 at *
  generalize K1val d (precompute d m o dt f w) 0 0 0 = k0 at *
  generalize Z1val d (precompute d m o dt f w) 0 0 0 = z0 at *
  unfold Lin1 at h1 h0
  have es : Sum.elim (blk (k1 - k0) j) (blk (z1 - z0) j)
      = Sum.elim (blk k1 j) (blk z1 j) - Sum.elim (blk k0 j) (blk z0 j) := by
    ext r; cases r <;> rfl
  have et : stageOf o dt x (blk (k1 - k0)) j = stageOf o dt x (blk k1) j - stageOf o dt 0 (blk k0) j := by
    have := stageOf_sub (o := o) (dt := dt) x 0 (blk k1) (blk k0) j
    rw [sub_zero] at this
    exact this
  rw [es, et, Matrix.mulVec_sub, Matrix.mulVec_sub, h1, h0]
  have : blk (0 : VV d → K) j = 0 := rfl
  simp only [this, Matrix.mulVec_zero]
  abel

theorem y_hom (w : Stale d K) (hw : Clean w)
    (x : Fin d.nx1 → K) (u : Fin d.nu → K) (v : VV d → K) (j : Fin d.s) (k : K1 d → K) (z : Z1 d → K)
    (hk : k = (precompute d m o dt f w).KKx *ᵥ x + (precompute d m o dt f w).KKv *ᵥ v
      + (precompute d m o dt f w).KKu *ᵥ u)
    (hz : z = (precompute d m o dt f w).ZZx *ᵥ x + (precompute d m o dt f w).ZZv *ᵥ v
      + (precompute d m o dt f w).ZZu *ᵥ u) :
    blk ((precompute d m o dt f w).YYx *ᵥ x + (precompute d m o dt f w).YYv *ᵥ v
      + (precompute d m o dt f w).YYu *ᵥ u) j = yOf d m (stageOf o dt x (blk k) j) (blk k j) (blk z j) := by
  have h1 := y_core (m := m) (o := o) (dt := dt) (f := f) w hw x u v j
  have h0 := y_core (m := m) (o := o) (dt := dt) (f := f) w hw 0 0 0 j
  have ek : k = K1val d (precompute d m o dt f w) x u v - K1val d (precompute d m o dt f w) 0 0 0 := by
    rw [hk]; simp only [K1val, Matrix.mulVec_zero]; abel
  have ez : z = Z1val d (precompute d m o dt f w) x u v - Z1val d (precompute d m o dt f w) 0 0 0 := by
    rw [hz]; simp only [Z1val, Matrix.mulVec_zero]; abel
  have ey : blk ((precompute d m o dt f w).YYx *ᵥ x + (precompute d m o dt f w).YYv *ᵥ v
      + (precompute d m o dt f w).YYu *ᵥ u) j
      = blk (yy d (precompute d m o dt f w) x u v) j - blk (yy d (precompute d m o dt f w) 0 0 0) j := by
    ext r
    simp only [blk, yy, yyss, Matrix.mulVec_zero, Pi.add_apply, Pi.sub_apply, Pi.zero_apply]
    ring
  rw [ey, h1, h0, ek, ez]
  generalize K1val d (precompute d m o dt f w) x u v = k1
  generalize Z1val d (precompute d m o dt f w) x u v = z1
  generalize K1val d (precompute d m o dt f w) 0 0 0 = k0
  generalize Z1val d (precompute d m o dt f w) 0 0 0 = z0
  have et : stageOf o dt x (blk (k1 - k0)) j = stageOf o dt x (blk k1) j - stageOf o dt 0 (blk k0) j := by
    have := stageOf_sub (o := o) (dt := dt) x 0 (blk k1) (blk k0) j
    rw [sub_zero] at this
    exact this
  have e1 : blk (k1 - k0) j = blk k1 j - blk k0 j := rfl
  have e2 : blk (z1 - z0) j = blk z1 j - blk z0 j := rfl
  unfold yOf
  rw [et, e1, e2]
  simp only [Matrix.mulVec_sub]
  abel

end Acados.Gnsf
