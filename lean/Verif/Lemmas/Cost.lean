import Verif.Model.Cost
import Verif.Spec.Cost
import Mathlib.Analysis.Calculus.Deriv.Add
import Mathlib.Analysis.Calculus.Deriv.Mul
import Mathlib.Tactic.Ring
import Mathlib.Tactic.LinearCombination
/-!
# Lemmas on the cost modules
-/
set_option linter.unusedSectionVars false
namespace Acados.Cost
open Finset

section
variable {K : Type*} [Field K] [DecidableEq K]

theorem sum4_comm (s t u v : Finset Nat) (F : Nat → Nat → Nat → Nat → K) :
    ∑ i ∈ s, ∑ j ∈ t, ∑ k ∈ u, ∑ l ∈ v, F i j k l = ∑ k ∈ u, ∑ l ∈ v, ∑ i ∈ s, ∑ j ∈ t, F i j k l := by
  calc _ = ∑ i ∈ s, ∑ k ∈ u, ∑ j ∈ t, ∑ l ∈ v, F i j k l := sum_congr rfl fun i _ => sum_comm
    _ = ∑ k ∈ u, ∑ i ∈ s, ∑ j ∈ t, ∑ l ∈ v, F i j k l := sum_comm
    _ = ∑ k ∈ u, ∑ i ∈ s, ∑ l ∈ v, ∑ j ∈ t, F i j k l := sum_congr rfl fun k _ => sum_congr rfl fun i _ => sum_comm
    _ = _ := sum_congr rfl fun k _ => sum_comm

theorem scaledFun_eq (s v : K) : scaledFun s v = s * v := by
  unfold scaledFun
  split
  · exact mul_comm _ _
  · next h => rw [not_not.1 h, one_mul]

theorem scaledGrad_eq (nv : Nat) (s : K) (g sg : Nat → K) (i : Nat) :
    scaledGrad nv s g sg i = s * (if i < nv then g i else sg (i - nv)) := by
  unfold scaledGrad
  split
  · rfl
  · next h => rw [not_not.1 h, one_mul]

theorem slackFun_eq [NeZero (2 : K)] (nv n : Nat) (sz sZ w : Nat → K) :
    slackFun nv n sz sZ w = slackCost nv n sz sZ w := by
  unfold slackFun slackCost
  rw [mul_sum]
  refine sum_congr rfl fun i _ => ?_
  have h2 : (2 : K) ≠ 0 := NeZero.ne _
  field_simp
  try ring

theorem symv_eq (ny : Nat) (W : Nat → Nat → K) (r : Nat → K) (i : Nat) :
    symv ny W r i = ∑ j ∈ range ny, symL W i j * r j := rfl

/-- `½ (W r)ᵀ r` -/
theorem symv_dot (ny : Nat) (W : Nat → Nat → K) (r : Nat → K) :
    1 / 2 * ∑ y ∈ range ny, symv ny W r y * r y = halfSq ny W r := by
  unfold halfSq
  congr 1
  refine sum_congr rfl fun i _ => ?_
  rw [symv_eq, sum_mul]
  exact sum_congr rfl fun j _ => by ring

theorem isDiag_spec (ny : Nat) (W : Nat → Nat → K) (h : isDiag ny W = true) (i j : Nat) (hi : i < ny) (hj : j < ny)
    (hij : j ≠ i) : W i j = 0 := by
  unfold isDiag at h
  simp only [Bool.and_eq_true, List.all_eq_true, List.mem_range, Bool.or_eq_true, decide_eq_true_eq] at h
  exact (h.2 i hi j hj).resolve_left hij

theorem chol_bilin (ny : Nat) (W L : Nat → Nat → K)
    (hL : ∀ i < ny, ∀ j ≤ i, ∑ k ∈ range (j + 1), L i k * L j k = W i j) (a b : Nat → K) :
    ∑ y ∈ range ny, (∑ k ∈ Ico y ny, a k * L k y) * (∑ k ∈ Ico y ny, b k * L k y)
      = ∑ k ∈ range ny, ∑ l ∈ range ny, symL W k l * a k * b l := by
  have hI : ∀ (c : Nat → K) (y : Nat), ∑ k ∈ Ico y ny, c k * L k y
      = ∑ k ∈ range ny, c k * (if y ≤ k then L k y else 0) := by
    intro c y
    simp only [mul_ite, mul_zero]
    rw [← sum_filter]
    refine sum_congr ?_ fun _ _ => rfl
    ext k; simp only [mem_Ico, mem_filter, mem_range]; omega
  have hS : ∀ k < ny, ∀ l < ny, ∑ y ∈ range ny, (if y ≤ k then L k y else 0) * (if y ≤ l then L l y else 0) = symL W k l := by
    have key : ∀ k < ny, ∀ l ≤ k, ∑ y ∈ range ny, (if y ≤ k then L k y else 0) * (if y ≤ l then L l y else 0) = W k l := by
      intro k hk l hl
      rw [← hL k hk l hl]
      have : ∀ y, (if y ≤ k then L k y else 0) * (if y ≤ l then L l y else 0) = if y < l + 1 then L k y * L l y else 0 := by
        intro y
        by_cases h : y ≤ l
        · rw [if_pos (by omega), if_pos h, if_pos (by omega)]
        · rw [if_neg h, if_neg (show ¬ y < l + 1 by omega), mul_zero]
      simp only [this]
      rw [← sum_filter]
      refine sum_congr ?_ fun _ _ => rfl
      ext y; simp only [mem_filter, mem_range]; omega
    intro k hk l hl
    unfold symL
    split
    · next h => exact key k hk l h
    · next h =>
      rw [← key l hl k (by omega)]
      exact sum_congr rfl fun y _ => mul_comm _ _
  simp only [hI]
  calc ∑ y ∈ range ny, (∑ k ∈ range ny, a k * if y ≤ k then L k y else 0) * ∑ k ∈ range ny, b k * (if y ≤ k then L k y else 0)
      = ∑ y ∈ range ny, ∑ k ∈ range ny, ∑ l ∈ range ny,
          a k * b l * ((if y ≤ k then L k y else 0) * (if y ≤ l then L l y else 0)) := by
        refine sum_congr rfl fun y _ => ?_
        rw [sum_mul_sum]
        exact sum_congr rfl fun k _ => sum_congr rfl fun l _ => by ring
    _ = ∑ k ∈ range ny, ∑ l ∈ range ny, ∑ y ∈ range ny,
          a k * b l * ((if y ≤ k then L k y else 0) * (if y ≤ l then L l y else 0)) := by
        rw [sum_comm]
        exact sum_congr rfl fun k _ => sum_comm
    _ = _ := by
        refine sum_congr rfl fun k hk => sum_congr rfl fun l hl => ?_
        rw [← mul_sum, hS k (mem_range.1 hk) l (mem_range.1 hl)]
        ring

theorem diag_bilin (ny : Nat) (W : Nat → Nat → K) (s : Nat → K) (hs : ∀ i < ny, s i * s i = W i i)
    (hW : isDiag ny W = true) (a b : Nat → K) :
    ∑ y ∈ range ny, (a y * s y) * (b y * s y) = ∑ k ∈ range ny, ∑ l ∈ range ny, symL W k l * a k * b l := by
  refine sum_congr rfl fun k hk => ?_
  rw [sum_eq_single k]
  · unfold symL
    rw [if_pos (le_refl _), ← hs k (mem_range.1 hk)]
    ring
  · intro l hl hlk
    unfold symL
    split
    · rw [isDiag_spec ny W hW k l (mem_range.1 hk) (mem_range.1 hl) hlk]; ring
    · rw [isDiag_spec ny W hW l k (mem_range.1 hl) (mem_range.1 hk) (Ne.symm hlk)]; ring
  · intro h; exact absurd hk h

/-- product with the factor, as in the code -/
def timesFactor (ny : Nat) (diag : Bool) (cd : Nat → K) (L : Nat → Nat → K) (a : Nat → K) (y : Nat) : K :=
  if diag then a y * cd y else ∑ k ∈ Ico y ny, a k * L k y

theorem factor_bilin (e : Ext K) (ny : Nat) (W : Nat → Nat → K) (hW : Factorizes e ny W) (diag : Bool)
    (hd : diag = isDiag ny W) (cd : Nat → K) (L : Nat → Nat → K)
    (h1 : diag = true → cd = fun i => e.sqrt (W i i)) (h2 : diag = false → L = e.potrf W) (a b : Nat → K) :
    ∑ y ∈ range ny, timesFactor ny diag cd L a y * timesFactor ny diag cd L b y
      = ∑ k ∈ range ny, ∑ l ∈ range ny, symL W k l * a k * b l := by
  unfold Factorizes at hW
  unfold timesFactor
  cases diag with
  | true =>
    rw [← hd, if_pos rfl] at hW
    simp only [if_true]
    rw [h1 rfl]
    exact diag_bilin ny W _ hW hd.symm a b
  | false =>
    rw [← hd] at hW
    simp only [Bool.false_eq_true, if_false] at hW ⊢
    rw [h2 rfl]
    exact chol_bilin ny W _ hW a b

theorem lsRes_eq (d : Dims) (m : LsModel K) (p : Point K) (y : Nat) :
    lsRes d m p y = ∑ i ∈ range d.nv, m.Cyt i y * p.ux i + ∑ k ∈ range d.nz, m.Vz y k * p.z k - m.yref y := by
  unfold lsRes lsCyt lsYref
  split
  · simp only [add_mul, sum_add_distrib, sum_mul, mul_sub, sum_sub_distrib, mul_sum]
    rw [sum_comm]
    have : ∀ k i, p.dz i k * m.Vz y k * p.ux i = m.Vz y k * (p.dz i k * p.ux i) := fun k i => by ring
    simp only [this]
    ring
  · next h =>
    have : d.nz = 0 := by omega
    rw [this, range_zero, sum_empty, add_zero]

theorem lsCyt_eq (d : Dims) (m : LsModel K) (p : Point K) (i y : Nat) :
    lsCyt d m p i y = m.Cyt i y + ∑ k ∈ range d.nz, p.dz i k * m.Vz y k := by
  unfold lsCyt
  split
  · rw [add_comm]
  · next h =>
    have : d.nz = 0 := by omega
    rw [this, range_zero, sum_empty, add_zero]

theorem lsTimesChol_eq (ny : Nat) (m : LsModel K) (mem : LsMem K) (A : Nat → Nat → K) (i y : Nat) :
    lsTimesChol ny m mem A i y = timesFactor ny m.diag mem.cholDiag mem.chol (A i) y := by
  unfold lsTimesChol timesFactor gemmNd trmm
  split <;> rfl

theorem lsCholRes_eq (ny : Nat) (m : LsModel K) (mem : LsMem K) (r : Nat → K) (y : Nat) :
    lsCholRes ny m mem r y = timesFactor ny m.diag mem.cholDiag mem.chol r y := by
  unfold lsCholRes timesFactor
  split
  · exact mul_comm _ _
  · exact sum_congr rfl fun k _ => mul_comm _ _

/-- the stored factor belongs to the stored weight -/
def FactorOk (e : Ext K) (s : LsState K) : Prop :=
  (s.m.diag = true → s.mem.cholDiag = fun i => e.sqrt (s.m.W i i)) ∧ (s.m.diag = false → s.mem.chol = e.potrf s.m.W)

/-- the stored Hessian belongs to the stored data -/
def HessOk (d : Dims) (s : LsState K) : Prop :=
  ∀ i j, j ≤ i → s.mem.hess i j = s.m.scaling * ∑ y ∈ range d.ny,
    timesFactor d.ny s.m.diag s.mem.cholDiag s.mem.chol (s.m.Cyt i) y *
    timesFactor d.ny s.m.diag s.mem.cholDiag s.mem.chol (s.m.Cyt j) y

/-- invariant of the cached factorisation -/
structure LsInv (d : Dims) (e : Ext K) (s : LsState K) : Prop where
  fac : s.m.wChanged = false → FactorOk e s
  hess : s.m.wChanged = false → s.m.cytChanged = false → HessOk d s

theorem lsInv_updateW (d : Dims) (e : Ext K) (s : LsState K) (h : LsInv d e s) :
    LsInv d e (lsUpdateW d e s) ∧ (lsUpdateW d e s).m.wChanged = false ∧ (lsUpdateW d e s).m.cytChanged = false := by
  have hf : (lsFactor e s).m.wChanged = false ∧ FactorOk e (lsFactor e s)
      ∧ ((lsFactor e s).m.cytChanged = false → HessOk d (lsFactor e s)) := by
    unfold lsFactor
    cases hw : s.m.wChanged with
    | true =>
      refine ⟨rfl, ?_, fun hc => by simp at hc⟩
      unfold FactorOk
      cases hd : s.m.diag <;> simp [hd]
    | false => exact ⟨hw, h.fac hw, h.hess hw⟩
  obtain ⟨h1, h2, h3⟩ := hf
  unfold lsUpdateW
  generalize lsFactor e s = t at h1 h2 h3 ⊢
  unfold lsHess
  cases hc : t.m.cytChanged with
  | true =>
    refine ⟨⟨fun _ => h2, fun _ _ => ?_⟩, h1, rfl⟩
    intro i j hij
    simp only [if_true, syrk, if_pos hij, zero_mul, add_zero, lsTimesChol_eq]
  | false => exact ⟨⟨fun _ => h2, fun _ _ => h3 hc⟩, h1, hc⟩

theorem lsUpdateW_data (d : Dims) (e : Ext K) (s : LsState K) :
    (lsUpdateW d e s).m = { s.m with wChanged := false, cytChanged := false } := by
  unfold lsUpdateW lsHess lsFactor
  rcases s with ⟨⟨W, C, V, yr, Z, z, sc, dg, wc, cc⟩, mem⟩
  cases wc <;> cases cc <;> cases dg <;> rfl

theorem lsUpdateW_RSQ (d : Dims) (e : Ext K) (s : LsState K) : (lsUpdateW d e s).mem.RSQ = s.mem.RSQ := by
  unfold lsUpdateW lsHess lsFactor
  rcases s with ⟨⟨W, C, V, yr, Z, z, sc, dg, wc, cc⟩, mem⟩
  cases wc <;> cases cc <;> cases dg <;> rfl

theorem lsInv_step (d : Dims) (e : Ext K) (s : LsState K) (h : LsInv d e s) (op : LsOp K) :
    LsInv d e (lsStep d e s op) := by
  cases op with
  | set f =>
    cases f <;>
      first
      | exact ⟨fun hw => Bool.noConfusion hw, fun hw => Bool.noConfusion hw⟩
      | exact ⟨fun hw => h.fac hw, fun _ hc => Bool.noConfusion hc⟩
      | exact ⟨fun hw => h.fac hw, fun hw hc => h.hess hw hc⟩
  | precompute =>
    simp only [lsStep, lsPrecompute]
    refine (lsInv_updateW d e _ ⟨?_, ?_⟩).1
    · intro hw; cases hw
    · intro hw; cases hw
  | init =>
    have := (lsInv_updateW d e s h).1
    exact ⟨fun hw => this.fac hw, fun hw hc => this.hess hw hc⟩
  | update add p => exact ⟨fun hw => h.fac hw, fun hw hc => h.hess hw hc⟩
  | computeFun p => exact ⟨fun hw => h.fac hw, fun hw hc => h.hess hw hc⟩

end

/-! Gradients -/
section Grad

theorem HasGrad.congr {n : Nat} {f : (Nat → ℝ) → ℝ} {g g' w : Nat → ℝ} (h : HasGrad n f g w) (hg : ∀ i < n, g i = g' i) :
    HasGrad n f g' w := by
  intro c d hc hd
  have := h c d hc hd
  rwa [sum_congr rfl fun i hi => by rw [hg i (mem_range.1 hi)]] at this

theorem HasGrad.extend {n m : Nat} {f : (Nat → ℝ) → ℝ} {g w : Nat → ℝ} (h : HasGrad n f g w) (hnm : n ≤ m) :
    HasGrad m f (fun i => if i < n then g i else 0) w := by
  intro c d hc hd
  have := h c d hc fun i hi => hd i (by omega)
  refine this.congr_deriv ?_
  symm
  obtain ⟨k, rfl⟩ := Nat.exists_eq_add_of_le hnm
  rw [sum_range_add, add_eq_left.2]
  · exact sum_congr rfl fun i hi => by simp only [if_pos (mem_range.1 hi)]
  · exact sum_eq_zero fun i _ => by simp only [show ¬ (n + i < n) by omega, if_false, zero_mul]

theorem HasGrad.add {n : Nat} {f f' : (Nat → ℝ) → ℝ} {g g' w : Nat → ℝ} (h : HasGrad n f g w) (h' : HasGrad n f' g' w) :
    HasGrad n (fun v => f v + f' v) (fun i => g i + g' i) w := by
  intro c d hc hd
  have := (h c d hc hd).add (h' c d hc hd)
  refine this.congr_deriv ?_
  symm
  rw [← sum_add_distrib]
  exact sum_congr rfl fun i _ => by ring

theorem HasGrad.const_mul {n : Nat} {f : (Nat → ℝ) → ℝ} {g w : Nat → ℝ} (s : ℝ) (h : HasGrad n f g w) :
    HasGrad n (fun v => s * f v) (fun i => s * g i) w := by
  intro c d hc hd
  have := (h c d hc hd).const_mul s
  refine this.congr_deriv ?_
  symm
  rw [mul_sum]
  exact sum_congr rfl fun i _ => by ring

theorem HasGrad.mul {n : Nat} {f f' : (Nat → ℝ) → ℝ} {g g' w : Nat → ℝ} (h : HasGrad n f g w) (h' : HasGrad n f' g' w) :
    HasGrad n (fun v => f v * f' v) (fun i => g i * f' w + f w * g' i) w := by
  intro c d hc hd
  have := (h c d hc hd).mul (h' c d hc hd)
  refine this.congr_deriv ?_
  symm
  rw [hc, sum_mul, mul_sum, ← sum_add_distrib]
  exact sum_congr rfl fun i _ => by ring

theorem HasGrad.sum {n : Nat} (m : Nat) {f : Nat → (Nat → ℝ) → ℝ} {g : Nat → Nat → ℝ} {w : Nat → ℝ}
    (h : ∀ j < m, HasGrad n (f j) (g j) w) : HasGrad n (fun v => ∑ j ∈ range m, f j v) (fun i => ∑ j ∈ range m, g j i) w := by
  induction m with
  | zero =>
    intro c d _ _
    simp only [range_zero, sum_empty, zero_mul, sum_const_zero]
    exact hasDerivAt_const _ _
  | succ m ih =>
    simp only [sum_range_succ]
    exact (ih fun j hj => h j (by omega)).add (h m (by omega))

theorem HasGrad.coord {n : Nat} (j : Nat) (hj : j < n) (w : Nat → ℝ) :
    HasGrad n (fun v => v j) (fun i => if i = j then 1 else 0) w := by
  intro c d _ hd
  have := hd j hj
  refine this.congr_deriv ?_
  symm
  rw [sum_eq_single j]
  · simp only [if_true, one_mul]
  · intro i _ hij; simp only [if_neg hij, zero_mul]
  · intro h; exact absurd (mem_range.2 hj) h

theorem HasGrad.const {n : Nat} (a : ℝ) (w : Nat → ℝ) : HasGrad n (fun _ => a) (fun _ => 0) w := by
  intro c d _ _
  simp only [zero_mul, sum_const_zero]
  exact hasDerivAt_const _ _

theorem HasGrad.halfSq {n : Nat} (ny : Nat) (W : Nat → Nat → ℝ) {r : Nat → (Nat → ℝ) → ℝ} {J : Nat → Nat → ℝ} {w : Nat → ℝ}
    (h : ∀ y < ny, HasGrad n (r y) (fun i => J i y) w) :
    HasGrad n (fun v => Cost.halfSq ny W fun y => r y v)
      (fun i => ∑ y ∈ range ny, J i y * symv ny W (fun y => r y w) y) w := by
  unfold Cost.halfSq
  have h1 := (HasGrad.sum (n := n) (w := w) ny fun k hk => HasGrad.sum (n := n) (w := w) ny fun l hl =>
    (((h k hk).const_mul (symL W k l)).mul (h l hl))).const_mul (1 / 2)
  refine h1.congr fun i _ => ?_
  simp only [symv_eq]
  have hsym : ∀ k l, symL W k l = symL W l k := by
    intro k l
    unfold symL
    rcases lt_trichotomy k l with h | h | h
    · rw [if_neg (by omega), if_pos h.le]
    · subst h; rfl
    · rw [if_pos h.le, if_neg (by omega)]
  have e1 : ∀ k l, symL W k l * J i k * r l w + symL W k l * r k w * J i l
      = J i k * (symL W k l * r l w) + J i l * (symL W l k * r k w) := by
    intro k l; rw [hsym l k]; ring
  simp only [e1, sum_add_distrib]
  rw [sum_comm (f := fun k l => J i l * (symL W l k * r k w))]
  simp only [← mul_sum]
  ring

theorem HasGrad2.comp {n m : Nat} {f : (Nat → ℝ) → (Nat → ℝ) → ℝ} {g h w z : Nat → ℝ} (hf : HasGrad2 n m f g h w z)
    {ζ : (Nat → ℝ) → Nat → ℝ} {dz : Nat → Nat → ℝ} (hz : ζ w = z)
    (hζ : ∀ k < m, HasGrad n (fun v => ζ v k) (fun i => dz i k) w) :
    HasGrad n (fun v => f v (ζ v)) (fun i => ∑ k ∈ range m, dz i k * h k + g i) w := by
  intro c d hc hd
  have := hf c (fun t => ζ (c t)) d (fun k => ∑ i ∈ range n, dz i k * d i) hc (by rw [hc, hz]) hd
    (fun k hk => hζ k hk c d hc hd)
  refine this.congr_deriv ?_
  symm
  simp only [add_mul, sum_add_distrib, sum_mul, mul_sum]
  rw [add_comm, sum_comm]
  congr 1
  exact sum_congr rfl fun k _ => sum_congr rfl fun i _ => by ring

theorem HasGrad.slack (nv ns2 : Nat) (sz sZ w : Nat → ℝ) :
    HasGrad (nv + ns2) (fun v => slackCost nv ns2 sz sZ v)
      (fun i => if i < nv then 0 else slackGrad nv sz sZ w (i - nv)) w := by
  unfold slackCost
  have h := HasGrad.sum (n := nv + ns2) (w := w) ns2 fun j hj =>
    ((HasGrad.coord (n := nv + ns2) (nv + j) (by omega) w).const_mul (sz j)).add
      (((HasGrad.coord (n := nv + ns2) (nv + j) (by omega) w).const_mul (1 / 2 * sZ j)).mul
        (HasGrad.coord (n := nv + ns2) (nv + j) (by omega) w))
  refine h.congr fun i hi => ?_
  split
  · next hn =>
    refine sum_eq_zero fun j _ => ?_
    rw [if_neg (by omega)]; ring
  · next hn =>
    rw [sum_eq_single (i - nv)]
    · rw [if_pos (by omega)]
      unfold slackGrad
      ring
    · intro j _ hji
      rw [if_neg (by omega)]; ring
    · intro hh
      exact absurd (mem_range.2 (by omega)) hh

/-- Assembly of a scaled stage cost: objective in `(u, x)` plus slack penalty. -/
theorem HasGrad.stage (nv ns2 : Nat) (s : ℝ) {f : (Nat → ℝ) → ℝ} {g w : Nat → ℝ} (hf : HasGrad nv f g w)
    (sz sZ : Nat → ℝ) :
    HasGrad (nv + ns2) (fun v => s * (f v + slackCost nv ns2 sz sZ v)) (scaledGrad nv s g (slackGrad nv sz sZ w)) w := by
  refine (((hf.extend (m := nv + ns2) (by omega)).add (HasGrad.slack nv ns2 sz sZ w)).const_mul s).congr fun i _ => ?_
  rw [scaledGrad_eq]
  split <;> simp

end Grad
end Acados.Cost
