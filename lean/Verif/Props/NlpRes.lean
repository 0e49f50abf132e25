import Verif.Model.NlpRes
import Mathlib.Algebra.BigOperators.Ring.Finset
import Mathlib.Algebra.Order.BigOperators.Group.Finset
import Mathlib.Tactic.Linarith
import Mathlib.Tactic.NormNum
import Mathlib.Tactic.Ring
import Mathlib.Tactic.Positivity
/-!
# Properties C29 (residuals), C30 (QP objective), C31 (infeasibility measure)
-/
namespace Acados.Res
open Finset
open Acados.Step (Dims)
variable {K : Type*} [Field K] [LinearOrder K] [IsStrictOrderedRing K]

/-! ## norms -/

theorem foldl_max_le (l : List Nat) (x : Nat → K) (m c : K) :
    l.foldl (fun m j => max m |x j|) m ≤ c ↔ m ≤ c ∧ ∀ j ∈ l, |x j| ≤ c := by
  induction l generalizing m with
  | nil => simp
  | cons a t ih =>
    rw [List.foldl_cons, ih, max_le_iff]
    simp [and_assoc]

theorem nrmInf_le (n : Nat) (x : Nat → K) (c : K) :
    nrmInf n x ≤ c ↔ 0 ≤ c ∧ ∀ j < n, |x j| ≤ c := by
  unfold nrmInf
  rw [foldl_max_le]
  simp

theorem nrmInf_nonneg (n : Nat) (x : Nat → K) : 0 ≤ nrmInf n x := ((nrmInf_le n x _).1 le_rfl).1

theorem nrmInf_zero (n : Nat) (x : Nat → K) : nrmInf n x = 0 ↔ ∀ j < n, x j = 0 := by
  rw [le_antisymm_iff, nrmInf_le]
  constructor
  · rintro ⟨⟨_, h⟩, _⟩ j hj
    exact abs_nonpos_iff.1 (h j hj)
  · intro h
    exact ⟨⟨le_rfl, fun j hj => by rw [h j hj, abs_zero]⟩, nrmInf_nonneg n x⟩

theorem nrmInf_nested (N : Nat) (n : Nat → Nat) (x : Nat → Nat → K) (tmp : Nat → K)
    (ht : ∀ i < N, tmp i = nrmInf (n i) (x i)) (c : K) :
    nrmInf N tmp ≤ c ↔ 0 ≤ c ∧ ∀ i < N, ∀ j < n i, |x i j| ≤ c := by
  rw [nrmInf_le]
  constructor
  · rintro ⟨h0, h⟩
    refine ⟨h0, fun i hi j hj => ?_⟩
    have h1 := h i hi
    rw [ht i hi, abs_of_nonneg (nrmInf_nonneg _ _)] at h1
    exact ((nrmInf_le _ _ _).1 h1).2 j hj
  · rintro ⟨h0, h⟩
    refine ⟨h0, fun i hi => ?_⟩
    rw [ht i hi, abs_of_nonneg (nrmInf_nonneg _ _)]
    exact (nrmInf_le _ _ _).2 ⟨h0, h i hi⟩

theorem ineqLoop_le (l : List K) (m c : K) :
    ineqLoop l m ≤ c ↔ m ≤ c ∧ ∀ t ∈ l, t ≤ c := by
  unfold ineqLoop
  induction l generalizing m with
  | nil => simp
  | cons a t ih =>
    rw [List.foldl_cons, ih]
    simp only [List.forall_mem_cons]
    constructor
    · rintro ⟨h1, h2⟩
      split at h1
      · next h => exact ⟨(le_of_lt h).trans h1, h1, h2⟩
      · next h => exact ⟨h1, (not_lt.1 h).trans h1, h2⟩
    · rintro ⟨h1, h2, h3⟩
      split <;> exact ⟨by assumption, h3⟩

theorem mem_ineqVals {D : Type*} (d : Dims) (f : Nat → Nat → D) (t : D) :
    t ∈ ineqVals d f ↔ ∃ i ≤ d.N, ∃ j < 2 * d.ni i, f i j = t := by
  simp [ineqVals, Nat.lt_succ_iff]

/-! ## specification: KKT system of the multiple-shooting NLP -/

/-- gradient of the Lagrangian `f + Σ πᵢᵀ (Fᵢ(xᵢ,uᵢ) - xᵢ₊₁) + Σ λᵢᵀ gᵢ` with respect to entry `r` of
`[u; x; slacks]` of stage `i`; `J i k r` is the Jacobian of the inequality vector -/
def lagGrad (d : Dims) (e : Eval K) (J : Nat → Nat → Nat → K) (i r : Nat) : K :=
  e.costGrad i r + (∑ k ∈ range (2 * d.ni i), J i k r * e.lam i k) +
  (if i < d.N ∧ r < d.nu i + d.nx i then
    ∑ c ∈ range (d.nx (i + 1)), (e.dyn i).BAbt r c * (e.dyn i).pi c else 0) -
  (if 0 < i ∧ d.nu i ≤ r ∧ r < d.nu i + d.nx i then (e.dyn (i - 1)).pi (r - d.nu i) else 0)

/-- first-order conditions without the sign of the multipliers -/
structure KktNoSign (d : Dims) (e : Eval K) (J : Nat → Nat → Nat → K) : Prop where
  stationarity : ∀ i ≤ d.N, ∀ r < d.nv i, lagGrad d e J i r = 0
  dynamics : ∀ i < d.N, ∀ j < d.nx (i + 1), e.dynFun i j = 0
  feasible : ∀ i ≤ d.N, ∀ j < 2 * d.ni i, e.ineqFun i j ≤ 0
  complementary : ∀ i ≤ d.N, ∀ j < 2 * d.ni i, e.lam i j * e.ineqFun i j = 0

/-- the KKT conditions -/
structure Kkt (d : Dims) (e : Eval K) (J : Nat → Nat → Nat → K) : Prop
    extends KktNoSign d e J where
  sign : ∀ i ≤ d.N, ∀ j < 2 * d.ni i, 0 ≤ e.lam i j

/-- the constraint modules report `-Jᵀ λ` (this is what C06 proves for them) -/
def AdjOk (d : Dims) (e : Eval K) (J : Nat → Nat → Nat → K) : Prop :=
  ∀ i ≤ d.N, ∀ r < d.nv i, e.ineqAdj i r = - ∑ k ∈ range (2 * d.ni i), J i k r * e.lam i k

theorem resStat_eq (d : Dims) (e : Eval K) (J : Nat → Nat → Nat → K) (hJ : AdjOk d e J) (i : Nat)
    (hi : i ≤ d.N) (r : Nat) (hr : r < d.nv i) : resStat d e i r = lagGrad d e J i r := by
  unfold resStat lagGrad dynAdj dynAdjModule
  rw [hJ i hi r hr]
  by_cases h1 : r < d.nu i + d.nx i
  · by_cases h2 : i < d.N <;> by_cases h3 : 0 < i ∧ d.nu i ≤ r <;>
      simp [h1, h2, h3] <;> ring
  · simp [h1]

/-! ## C29 -/

/-- **C29** (what the norms are): every reported norm is nonnegative and is the least bound of the
corresponding entries over all stages — the gradient of the Lagrangian, the dynamics gaps, the
positive parts of the inequalities, the complementarity products. -/
theorem C29_norms (d : Dims) (e : Eval K) (J : Nat → Nat → Nat → K) (hJ : AdjOk d e J)
    (tmp : Nat → K) (c : K) :
    let n := (resCompute d e 0 tmp).1
    (n.stat ≤ c ↔ 0 ≤ c ∧ ∀ i ≤ d.N, ∀ r < d.nv i, |lagGrad d e J i r| ≤ c) ∧
    (n.eq ≤ c ↔ 0 ≤ c ∧ ∀ i < d.N, ∀ j < d.nx (i + 1), |e.dynFun i j| ≤ c) ∧
    (n.ineq ≤ c ↔ 0 ≤ c ∧ ∀ i ≤ d.N, ∀ j < 2 * d.ni i, e.ineqFun i j ≤ c) ∧
    (n.comp ≤ c ↔ 0 ≤ c ∧ ∀ i ≤ d.N, ∀ j < 2 * d.ni i, |e.lam i j * e.ineqFun i j| ≤ c) := by
  refine ⟨?_, ?_, ?_, ?_⟩
  · simp only [resCompute]
    rw [nrmInf_nested (d.N + 1) d.nv (resStat d e) _ (fun i hi => if_pos (by omega))]
    refine and_congr Iff.rfl ⟨fun h i hi r hr => ?_, fun h i hi r hr => ?_⟩
    · rw [← resStat_eq d e J hJ i hi r hr]; exact h i (by omega) r hr
    · rw [resStat_eq d e J hJ i (by omega) r hr]; exact h i (by omega) r hr
  · simp only [resCompute]
    exact nrmInf_nested d.N (fun i => d.nx (i + 1)) e.dynFun _ (fun i hi => if_pos hi) c
  · simp only [resCompute]
    rw [ineqLoop_le]
    refine and_congr Iff.rfl ⟨fun h i hi j hj => ?_, fun h t ht => ?_⟩
    · exact h _ ((mem_ineqVals d e.ineqFun _).2 ⟨i, hi, j, hj, rfl⟩)
    · obtain ⟨i, hi, j, hj, rfl⟩ := (mem_ineqVals d e.ineqFun t).1 ht
      exact h i hi j hj
  · simp only [resCompute, ne_eq, not_true_eq_false, if_false]
    rw [nrmInf_nested (d.N + 1) (fun i => 2 * d.ni i) (fun i r => e.lam i r * e.ineqFun i r) _
      (fun i hi => if_pos (by omega))]
    refine and_congr Iff.rfl ⟨fun h i hi => h i (by omega), fun h i hi => h i (by omega)⟩

/-- the value passed to the user as overall residual bounds all four -/
theorem infNorm_le (n : Norms K) (c : K) :
    infNorm n ≤ c ↔ n.stat ≤ c ∧ n.eq ≤ c ∧ n.ineq ≤ c ∧ n.comp ≤ c := by
  have key : ∀ a b : K, (if a > b then a else b) = max a b := fun a b => by
    have := cmax_eq_max a b
    unfold cmax at this
    exact this
  unfold infNorm
  simp only [key, max_le_iff]
  constructor
  · rintro ⟨a, b, c, d⟩; exact ⟨d, c, b, a⟩
  · rintro ⟨a, b, c, d⟩; exact ⟨d, c, b, a⟩

/-- **C29** (zero residuals): all four norms vanish iff stationarity, dynamics, feasibility and
complementarity hold exactly. -/
theorem C29_zero_iff (d : Dims) (e : Eval K) (J : Nat → Nat → Nat → K) (hJ : AdjOk d e J)
    (tmp : Nat → K) :
    infNorm (resCompute d e 0 tmp).1 ≤ 0 ↔ KktNoSign d e J := by
  rw [infNorm_le]
  obtain ⟨h1, h2, h3, h4⟩ := C29_norms d e J hJ tmp 0
  rw [h1, h2, h3, h4]
  simp only [le_refl, true_and, abs_nonpos_iff]
  constructor
  · rintro ⟨a, b, c, d⟩; exact ⟨a, b, c, d⟩
  · rintro ⟨a, b, c, d⟩; exact ⟨a, b, c, d⟩

/-- **C29** (partial): zero residuals characterise KKT points among the iterates with nonnegative
multipliers.  Missing for the full property: the sign of the multipliers is not part of the
residuals (`C29_sign_not_checked`); C27 shows that steps preserve it. -/
theorem C29_kkt_partial (d : Dims) (e : Eval K) (J : Nat → Nat → Nat → K) (hJ : AdjOk d e J)
    (tmp : Nat → K) (hlam : ∀ i ≤ d.N, ∀ j < 2 * d.ni i, 0 ≤ e.lam i j) :
    infNorm (resCompute d e 0 tmp).1 ≤ 0 ↔ Kkt d e J := by
  rw [C29_zero_iff d e J hJ tmp]
  exact ⟨fun h => ⟨h, hlam⟩, fun h => h.toKktNoSign⟩

/-- one stage, one state, one inequality `x ≤ 0` active at the iterate, cost gradient `+1`,
multiplier `-1` -/
def signDims : Dims := ⟨0, fun _ => 1, fun _ => 0, fun _ => 0, fun _ => 0, fun _ => 1⟩
def signEval : Eval ℚ where
  costGrad := fun _ _ => 1
  ineqAdj := fun _ _ => 1
  dyn := fun _ => ⟨fun _ _ => 0, fun _ => 0⟩
  dynFun := fun _ _ => 0
  ineqFun := fun _ j => if j = 1 then 0 else -1
  lam := fun _ j => if j = 1 then -1 else 0
  dmask := fun _ _ => 1
  ne := fun _ => 0
  idxe := fun _ _ => 0

/-- **C29** is false without that restriction: a maximiser (negative multiplier) has all residuals
zero. -/
theorem C29_sign_not_checked :
    ∃ J : Nat → Nat → Nat → ℚ, AdjOk signDims signEval J ∧
      infNorm (resCompute signDims signEval 0 (fun _ => 0)).1 ≤ 0 ∧ ¬ Kkt signDims signEval J := by
  refine ⟨fun _ k _ => if k = 1 then 1 else -1, ?_, ?_, ?_⟩
  · intro i hi r hr
    simp only [signDims, signEval]
    decide +kernel
  · decide +kernel
  · intro h
    have := h.sign 0 (by decide) 1 (by decide)
    simp only [signEval, if_true] at this
    exact absurd this (by decide +kernel)

/-- the entries the perturbed complementarity residual should consider: unmasked rows that do not
belong to an equality (row `r` belongs to equality `j` if it is its lower row `idxe j` or its upper
row `idxe j + nb+ng+nh`, where `nb+ng+nh = ni - ns`) -/
def EqRow (d : Dims) (e : Eval K) (i r : Nat) : Prop :=
  ∃ j < e.ne i, r = e.idxe i j ∨ r = e.idxe i j + (d.ni i - d.ns i)

/-- **C29** (interior-point smoothing `tau_min ≠ 0`; partial): if every stage has inequalities and
no stage with equalities has slacks, the complementarity norm bounds `|λ g + τ|` over all unmasked
non-equality rows.  Missing: stages without inequalities (`C29_tau_stale_norm`) and stages with
equalities and slacks (`C29_tau_wrong_row`). -/
theorem C29_tau_partial (d : Dims) (e : Eval K) (tau : K) (ht : tau ≠ 0) (tmp : Nat → K) (c : K)
    (hni : ∀ i ≤ d.N, 0 < d.ni i) (hns : ∀ i ≤ d.N, 0 < e.ne i → d.ns i = 0)
    (hmask : ∀ i ≤ d.N, ∀ r < 2 * d.ni i, e.dmask i r = 0 ∨ e.dmask i r = 1) :
    (resCompute d e tau tmp).1.comp ≤ c ↔ 0 ≤ c ∧ ∀ i ≤ d.N, ∀ r < 2 * d.ni i,
      e.dmask i r = 1 → ¬ EqRow d e i r → |e.lam i r * e.ineqFun i r + tau| ≤ c := by
  simp only [resCompute, ne_eq, ht, not_false_eq_true, if_true]
  rw [nrmInf_nested (d.N + 1) (fun i => 2 * d.ni i) (resCompTau d e tau) _
    (fun i hi => if_pos ⟨by omega, hni i (by omega)⟩)]
  refine and_congr_right fun hc => ?_
  have hrow : ∀ i ≤ d.N, ∀ r, (∃ j < e.ne i, r = e.idxe i j ∨ r = e.idxe i j + d.ni i)
      ↔ EqRow d e i r := by
    intro i hi r
    constructor
    · rintro ⟨j, hj, h⟩
      refine ⟨j, hj, ?_⟩
      rw [hns i hi (by omega), Nat.sub_zero]; exact h
    · rintro ⟨j, hj, h⟩
      refine ⟨j, hj, ?_⟩
      rw [hns i hi (by omega), Nat.sub_zero] at h; exact h
  constructor
  · intro h i hi r hr hm he
    have := h i (by omega) r hr
    unfold resCompTau at this
    rw [hm, if_neg (by rw [hrow i hi]; exact he), one_mul] at this
    exact this
  · intro h i hi r hr
    have hi' : i ≤ d.N := by omega
    unfold resCompTau
    by_cases he : EqRow d e i r
    · rw [if_pos ((hrow i hi' r).2 he), mul_zero, abs_zero]; exact hc
    · rw [if_neg (by rw [hrow i hi']; exact he)]
      rcases hmask i hi' r hr with hm | hm
      · rw [hm, zero_mul, abs_zero]; exact hc
      · rw [hm, one_mul]; exact h i hi' r hr hm he

/-- **C29** with `tau_min ≠ 0` is false when a stage has no inequalities: the complementarity norm
then also contains the dynamics (or stationarity) norm of that stage. -/
theorem C29_tau_stale_norm :
    ∃ (d : Dims) (e : Eval ℚ), (∀ i, d.ni i = 0) ∧ ∀ tmp : Nat → ℚ,
      (resCompute d e (1/10) tmp).1.comp = 7 := by
  refine ⟨⟨1, fun _ => 1, fun _ => 0, fun _ => 0, fun _ => 0, fun _ => 0⟩,
    ⟨fun _ _ => 0, fun _ _ => 0, fun _ => ⟨fun _ _ => 0, fun _ => 0⟩, fun _ _ => 7, fun _ _ => 0,
      fun _ _ => 0, fun _ _ => 0, fun _ => 0, fun _ _ => 0⟩, fun _ => rfl, fun tmp => ?_⟩
  -- no entry of `tmp` that is read depends on the previous content
  have h : ∀ tmp', (resCompute (K := ℚ)
      ⟨1, fun _ => 1, fun _ => 0, fun _ => 0, fun _ => 0, fun _ => 0⟩
      ⟨fun _ _ => 0, fun _ _ => 0, fun _ => ⟨fun _ _ => 0, fun _ => 0⟩, fun _ _ => 7, fun _ _ => 0,
      fun _ _ => 0, fun _ _ => 0, fun _ => 0, fun _ _ => 0⟩ (1/10) tmp').1.comp
      = (resCompute (K := ℚ)
      ⟨1, fun _ => 1, fun _ => 0, fun _ => 0, fun _ => 0, fun _ => 0⟩
      ⟨fun _ _ => 0, fun _ _ => 0, fun _ => ⟨fun _ _ => 0, fun _ => 0⟩, fun _ _ => 7, fun _ _ => 0,
      fun _ _ => 0, fun _ _ => 0, fun _ => 0, fun _ _ => 0⟩ (1/10) (fun _ => 0)).1.comp := fun _ => rfl
  rw [h tmp]
  decide +kernel

/-- **C29** with `tau_min ≠ 0` is false for a stage with one equality (bound row 0) and one slack:
the upper row of the equality is counted although it should not be, and a slack row is skipped. -/
theorem C29_tau_wrong_row :
    ∃ (d : Dims) (e : Eval ℚ) (tau : ℚ), tau ≠ 0 ∧
      -- every row that should count has `λ g + τ = 0` …
      (∀ i ≤ d.N, ∀ r < 2 * d.ni i, ¬ EqRow d e i r → e.lam i r * e.ineqFun i r + tau = 0) ∧
      -- … but the reported norm is not zero
      (resCompute d e tau (fun _ => 0)).1.comp ≠ 0 := by
  refine ⟨⟨0, fun _ => 1, fun _ => 0, fun _ => 0, fun _ => 1, fun _ => 3⟩,
    ⟨fun _ _ => 0, fun _ _ => 0, fun _ => ⟨fun _ _ => 0, fun _ => 0⟩, fun _ _ => 0,
      fun _ r => if r = 0 ∨ r = 2 then 0 else -1, fun _ r => if r = 2 then 5 else 1,
      fun _ _ => 1, fun _ => 1, fun _ _ => 0⟩, 1, by norm_num, ?_, by decide +kernel⟩
  intro i hi r hr he
  simp only at hr ⊢
  have h0 : r ≠ 0 := fun h => he ⟨0, by simp, Or.inl h⟩
  have h2 : r ≠ 2 := fun h => he ⟨0, by simp, Or.inr (by simp [h])⟩
  simp [h0, h2]

/-- **C29** is false for NaN inequality values: a NaN entry never enters the reported norm, so a
stage whose constraint function returned NaN is reported as feasible. -/
theorem C29_nan_ignored (l l' : List Dbl) (m : Dbl) :
    ineqLoop (l ++ Dbl.nan :: l') m = ineqLoop (l ++ l') m := by
  have : ∀ m : Dbl, (if Dbl.nan > m then Dbl.nan else m) = m := by
    intro m
    refine if_neg ?_
    show ¬ (Dbl.lt m Dbl.nan = true)
    cases m <;> simp [Dbl.lt]
  unfold ineqLoop
  rw [List.foldl_append, List.foldl_append, List.foldl_cons, this]

/-- non-vacuity: the sign example satisfies the hypotheses of `C29_zero_iff`, and with the sign
corrected (cost gradient `-1`) it is a KKT point -/
example : ∃ (d : Dims) (e : Eval ℚ) (J : Nat → Nat → Nat → ℚ), AdjOk d e J ∧
    (∀ i ≤ d.N, ∀ j < 2 * d.ni i, 0 ≤ e.lam i j) ∧ e.lam 0 1 = 1 ∧
    infNorm (resCompute d e 0 (fun _ => 5)).1 ≤ 0 := by
  refine ⟨signDims, 
    ⟨fun _ _ => -1, fun _ _ => -1, signEval.dyn, signEval.dynFun, signEval.ineqFun,
      fun _ j => if j = 1 then 1 else 0, signEval.dmask, signEval.ne, signEval.idxe⟩, fun _ k _ => if k = 1 then 1 else -1, ?_, ?_, rfl, ?_⟩
  · intro i hi r hr
    simp only [signDims]
    decide +kernel
  · intro i hi j hj
    simp only
    split <;> norm_num
  · decide +kernel

/-! ## C30 -/

/-- what the QP solver minimises: `½ dᵀ H d + gᵀ d + ½ sᵀ Z s + zᵀ s` with the symmetric matrix whose
lower triangle is stored -/
def qpValue (d : Dims) (q : QpObj K) (ux : Nat → Nat → K) : K :=
  ∑ i ∈ range (d.N + 1),
    ((1/2) * (∑ r ∈ range (d.nx i + d.nu i), ∑ c ∈ range (d.nx i + d.nu i),
        ux i r * (if c ≤ r then q.H i r c else q.H i c r) * ux i c) +
      (∑ r ∈ range (d.nx i + d.nu i), q.g i r * ux i r) +
      (1/2) * (∑ k ∈ range (2 * d.ns i), q.Z i k * ux i (d.nx i + d.nu i + k) ^ 2) +
      ∑ k ∈ range (2 * d.ns i), q.g i (d.nx i + d.nu i + k) * ux i (d.nx i + d.nu i + k))

/-- **C30** (exact value): the value the code computes is the QP objective plus the sum of the
squares of all slack steps. -/
theorem C30_exact_value (d : Dims) (q : QpObj K) (ux : Nat → Nat → K) :
    qpObj d q ux = qpValue d q ux +
      ∑ i ∈ range (d.N + 1), ∑ k ∈ range (2 * d.ns i), ux i (d.nx i + d.nu i + k) ^ 2 := by
  unfold qpObj qpValue qpObjStage symL
  rw [← sum_add_distrib]
  refine sum_congr rfl fun i _ => ?_
  simp only
  have e1 : ∑ r ∈ range (d.nx i + d.nu i), ux i r * ((1/2) * ∑ c ∈ range (d.nx i + d.nu i),
        (if c ≤ r then q.H i r c else q.H i c r) * ux i c)
      = (1/2) * ∑ r ∈ range (d.nx i + d.nu i), ∑ c ∈ range (d.nx i + d.nu i),
        ux i r * (if c ≤ r then q.H i r c else q.H i c r) * ux i c := by
    rw [mul_sum]
    refine sum_congr rfl fun r _ => ?_
    rw [mul_sum, mul_sum, mul_sum]
    exact sum_congr rfl fun c _ => by ring
  have e2 : (1/2 : K) * ∑ k ∈ range (2 * d.ns i),
        (2 * ux i (d.nx i + d.nu i + k) + q.Z i k * ux i (d.nx i + d.nu i + k)) *
          ux i (d.nx i + d.nu i + k)
      = (∑ k ∈ range (2 * d.ns i), ux i (d.nx i + d.nu i + k) ^ 2) +
        (1/2) * ∑ k ∈ range (2 * d.ns i), q.Z i k * ux i (d.nx i + d.nu i + k) ^ 2 := by
    rw [mul_sum, mul_sum, ← sum_add_distrib]
    exact sum_congr rfl fun k _ => by ring
  have e3 : ∑ r ∈ range (d.nx i + d.nu i), ux i r * q.g i r
      = ∑ r ∈ range (d.nx i + d.nu i), q.g i r * ux i r :=
    sum_congr rfl fun r _ => mul_comm _ _
  have e4 : ∑ k ∈ range (2 * d.ns i), ux i (d.nx i + d.nu i + k) * q.g i (d.nx i + d.nu i + k)
      = ∑ k ∈ range (2 * d.ns i), q.g i (d.nx i + d.nu i + k) * ux i (d.nx i + d.nu i + k) :=
    sum_congr rfl fun r _ => mul_comm _ _
  rw [e1, e2, e3, e4]
  ring

/-- **C30** (partial): without slacks the computed value is the QP objective.  Missing: problems
with slacks, where the value is too large (`C30_exact_value`, `C30_false_with_slacks`). -/
theorem C30_no_slacks_partial (d : Dims) (hns : ∀ i ≤ d.N, d.ns i = 0) (q : QpObj K)
    (ux : Nat → Nat → K) : qpObj d q ux = qpValue d q ux := by
  rw [C30_exact_value]
  have : ∑ i ∈ range (d.N + 1), ∑ k ∈ range (2 * d.ns i), ux i (d.nx i + d.nu i + k) ^ 2 = 0 := by
    refine sum_eq_zero fun i hi => ?_
    rw [hns i (by have := mem_range.1 hi; omega)]
    simp
  rw [this, add_zero]

/-- the computed value is never below the QP objective, and equal exactly when no slack moves -/
theorem C30_overestimates (d : Dims) (q : QpObj K) (ux : Nat → Nat → K) :
    qpValue d q ux ≤ qpObj d q ux ∧
    (qpObj d q ux = qpValue d q ux ↔
      ∀ i ≤ d.N, ∀ k < 2 * d.ns i, ux i (d.nx i + d.nu i + k) = 0) := by
  rw [C30_exact_value]
  have hnn : ∀ i ∈ range (d.N + 1),
      0 ≤ ∑ k ∈ range (2 * d.ns i), ux i (d.nx i + d.nu i + k) ^ 2 :=
    fun i _ => sum_nonneg fun k _ => sq_nonneg _
  refine ⟨by linarith [sum_nonneg hnn], ?_⟩
  rw [add_eq_left, sum_eq_zero_iff_of_nonneg hnn]
  constructor
  · intro h i hi k hk
    have := h i (mem_range.2 (by omega))
    rw [sum_eq_zero_iff_of_nonneg (fun k _ => sq_nonneg _)] at this
    exact pow_eq_zero_iff (two_ne_zero) |>.1 (this k (mem_range.2 hk))
  · intro h i hi
    refine sum_eq_zero fun k hk => ?_
    rw [h i (by have := mem_range.1 hi; omega) k (mem_range.1 hk)]
    simp

/-- **C30** is false with slacks: a descent step of the QP whose computed objective value is
positive, so that the predicted reduction has the wrong sign. -/
theorem C30_false_with_slacks :
    ∃ (d : Dims) (q : QpObj ℚ) (ux : Nat → Nat → ℚ),
      qpValue d q ux < 0 ∧ 0 < qpObj d q ux :=
  ⟨⟨0, fun _ => 1, fun _ => 0, fun _ => 0, fun _ => 1, fun _ => 3⟩,
    ⟨fun _ _ _ => 1, fun _ _ => -1, fun _ _ => 1⟩, fun _ j => if j = 1 then 1 else 0,
    by decide +kernel, by decide +kernel⟩

/-- the directional derivative used by the line searches is `gᵀ d` over all variables and slacks,
and the QP value minus its quadratic part -/
theorem C30_directional_derivative (d : Dims) (q : QpObj K) (ux : Nat → Nat → K) :
    dirDer d q ux = ∑ i ∈ range (d.N + 1), ∑ r ∈ range (d.nv i), q.g i r * ux i r := by
  unfold dirDer
  refine sum_congr rfl fun i _ => ?_
  unfold Dims.nv
  rw [sum_range_add _ (d.nx i + d.nu i) (2 * d.ns i)]
  simp only [mul_comm]

example : ∃ (d : Dims) (q : QpObj ℚ) (ux : Nat → Nat → ℚ), (∀ i ≤ d.N, d.ns i = 0) ∧
    qpObj d q ux = -1/2 ∧ dirDer d q ux = -1 :=
  ⟨⟨0, fun _ => 1, fun _ => 0, fun _ => 0, fun _ => 0, fun _ => 0⟩,
    ⟨fun _ _ _ => 1, fun _ _ => -1, fun _ _ => 0⟩, fun _ _ => 1, fun _ _ => rfl,
    by decide +kernel, by decide +kernel⟩

/-! ## C31 -/

omit [IsStrictOrderedRing K] in
theorem posPart_eq (x : K) : (if x > 0 then x else 0) = max x 0 := by
  split
  · next h => exact (max_eq_left (le_of_lt h)).symm
  · next h => exact (max_eq_right (not_lt.1 h)).symm

/-- **C31** (nonnegative, zero iff feasible). -/
theorem C31_zero_iff_feasible (d : Dims) (F g : Nat → Nat → K) :
    0 ≤ l1Infeas d F g ∧
    (l1Infeas d F g = 0 ↔
      (∀ i < d.N, ∀ j < d.nx (i + 1), F i j = 0) ∧ ∀ i ≤ d.N, ∀ j < 2 * d.ni i, g i j ≤ 0) := by
  unfold l1Infeas
  simp only [posPart_eq]
  have h1 : ∀ i ∈ range d.N, 0 ≤ ∑ j ∈ range (d.nx (i + 1)), |F i j| :=
    fun i _ => sum_nonneg fun j _ => abs_nonneg _
  have h2 : ∀ i ∈ range (d.N + 1), 0 ≤ ∑ j ∈ range (2 * d.ni i), max (g i j) 0 :=
    fun i _ => sum_nonneg fun j _ => le_max_right _ _
  refine ⟨add_nonneg (sum_nonneg h1) (sum_nonneg h2), ?_⟩
  rw [add_eq_zero_iff_of_nonneg (sum_nonneg h1) (sum_nonneg h2),
    sum_eq_zero_iff_of_nonneg h1, sum_eq_zero_iff_of_nonneg h2]
  refine and_congr ⟨fun h i hi j hj => ?_, fun h i hi => ?_⟩ ⟨fun h i hi j hj => ?_, fun h i hi => ?_⟩
  · have := h i (mem_range.2 hi)
    rw [sum_eq_zero_iff_of_nonneg (fun j _ => abs_nonneg _)] at this
    exact abs_eq_zero.1 (this j (mem_range.2 hj))
  · exact sum_eq_zero fun j hj => by rw [h i (mem_range.1 hi) j (mem_range.1 hj), abs_zero]
  · have := h i (mem_range.2 (by omega))
    rw [sum_eq_zero_iff_of_nonneg (fun j _ => le_max_right _ _)] at this
    exact max_eq_right_iff.1 (this j (mem_range.2 hj))
  · exact sum_eq_zero fun j hj =>
      max_eq_right (h i (by have := mem_range.1 hi; omega) j (mem_range.1 hj))

/-- **C31** (convexity): between two points of an affine model the measure is below the straight
line, for every fraction in `[0,1]`. -/
theorem C31_convex (d : Dims) (F F' g g' : Nat → Nat → K) (a : K) (h0 : 0 ≤ a) (h1 : a ≤ 1) :
    l1Infeas d (fun i j => (1 - a) * F i j + a * F' i j)
        (fun i j => (1 - a) * g i j + a * g' i j)
      ≤ (1 - a) * l1Infeas d F g + a * l1Infeas d F' g' := by
  have hb : 0 ≤ 1 - a := by linarith
  unfold l1Infeas
  simp only [posPart_eq]
  have e1 : ∑ i ∈ range d.N, ∑ j ∈ range (d.nx (i + 1)), |(1 - a) * F i j + a * F' i j|
      ≤ (1 - a) * (∑ i ∈ range d.N, ∑ j ∈ range (d.nx (i + 1)), |F i j|) +
        a * ∑ i ∈ range d.N, ∑ j ∈ range (d.nx (i + 1)), |F' i j| := by
    rw [mul_sum, mul_sum, ← sum_add_distrib]
    refine sum_le_sum fun i _ => ?_
    rw [mul_sum, mul_sum, ← sum_add_distrib]
    refine sum_le_sum fun j _ => ?_
    calc |(1 - a) * F i j + a * F' i j| ≤ |(1 - a) * F i j| + |a * F' i j| := abs_add_le _ _
      _ = (1 - a) * |F i j| + a * |F' i j| := by
        rw [abs_mul, abs_mul, abs_of_nonneg h0, abs_of_nonneg hb]
  have e2 : ∑ i ∈ range (d.N + 1), ∑ j ∈ range (2 * d.ni i), max ((1 - a) * g i j + a * g' i j) 0
      ≤ (1 - a) * (∑ i ∈ range (d.N + 1), ∑ j ∈ range (2 * d.ni i), max (g i j) 0) +
        a * ∑ i ∈ range (d.N + 1), ∑ j ∈ range (2 * d.ni i), max (g' i j) 0 := by
    rw [mul_sum, mul_sum, ← sum_add_distrib]
    refine sum_le_sum fun i _ => ?_
    rw [mul_sum, mul_sum, ← sum_add_distrib]
    refine sum_le_sum fun j _ => ?_
    refine max_le (add_le_add (mul_le_mul_of_nonneg_left (le_max_left _ _) hb)
      (mul_le_mul_of_nonneg_left (le_max_left _ _) h0)) ?_
    exact add_nonneg (mul_nonneg hb (le_max_right _ _)) (mul_nonneg h0 (le_max_right _ _))
  linarith

/-- **C31** (linearised directions): if the step `p` satisfies the linearised dynamics and
inequalities (`F + F'p = 0`, `g + g'p ≤ 0`), the measure of the linearisation after a fraction `a` of
the step is at most `(1 - a)` times the current one — the reduction the funnel method predicts. -/
theorem C31_linear_decrease (d : Dims) (F dF g dg : Nat → Nat → K) (a : K) (h0 : 0 ≤ a)
    (h1 : a ≤ 1) (hF : ∀ i < d.N, ∀ j < d.nx (i + 1), F i j + dF i j = 0)
    (hg : ∀ i ≤ d.N, ∀ j < 2 * d.ni i, g i j + dg i j ≤ 0) :
    l1Infeas d (fun i j => F i j + a * dF i j) (fun i j => g i j + a * dg i j)
      ≤ (1 - a) * l1Infeas d F g := by
  have hz : l1Infeas d (fun i j => F i j + dF i j) (fun i j => g i j + dg i j) = 0 :=
    (C31_zero_iff_feasible d _ _).2.2 ⟨hF, hg⟩
  have hc := C31_convex d F (fun i j => F i j + dF i j) g (fun i j => g i j + dg i j) a h0 h1
  rw [hz, mul_zero, add_zero] at hc
  refine le_trans (le_of_eq ?_) hc
  congr 1 <;> funext i j <;> ring

/-- the multiplier norms used for the merit weights are the least bounds of the multipliers -/
theorem C31_multiplier_norms (d : Dims) (pi lam : Nat → Nat → K) (c : K) :
    (piNorm d pi ≤ c ↔ 0 ≤ c ∧ ∀ i < d.N, ∀ j < d.nx (i + 1), |pi i j| ≤ c) ∧
    (lamNorm d lam ≤ c ↔ 0 ≤ c ∧ ∀ i ≤ d.N, ∀ j < 2 * d.ni i, |lam i j| ≤ c) := by
  have key : ∀ (l : List Nat) (n : Nat → Nat) (x : Nat → Nat → K) (m : K),
      l.foldl (fun m i => (List.range (n i)).foldl (fun m j => max m |x i j|) m) m ≤ c ↔
        m ≤ c ∧ ∀ i ∈ l, ∀ j < n i, |x i j| ≤ c := by
    intro l n x
    induction l with
    | nil => intro m; simp
    | cons a t ih =>
      intro m
      rw [List.foldl_cons, ih, foldl_max_le]
      simp [and_assoc]
  unfold piNorm lamNorm
  refine ⟨(key _ _ _ _).trans ?_, (key _ _ _ _).trans ?_⟩
  · simp
  · simp [Nat.lt_succ_iff]

/-- non-vacuity of the linearised decrease: an infeasible iterate and a step that solves the
linearisation -/
example : ∃ (d : Dims) (F dF g dg : Nat → Nat → ℚ),
    (∀ i < d.N, ∀ j < d.nx (i + 1), F i j + dF i j = 0) ∧
    (∀ i ≤ d.N, ∀ j < 2 * d.ni i, g i j + dg i j ≤ 0) ∧ l1Infeas d F g = 5 ∧
    l1Infeas d (fun i j => F i j + 1/2 * dF i j) (fun i j => g i j + 1/2 * dg i j) = 3/2 := by
  refine ⟨⟨1, fun _ => 1, fun _ => 0, fun _ => 0, fun _ => 0, fun i => if i = 0 then 1 else 0⟩,
    fun _ _ => 3, fun _ _ => -3, fun _ _ => 1, fun _ _ => -2, ?_, ?_, by decide +kernel,
    by decide +kernel⟩ <;> intros <;> norm_num

end Acados.Res
