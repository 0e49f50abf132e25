import Verif.Model.Expm
import Verif.Spec.Pade
import Verif.Props.LinSolve
import Mathlib.LinearAlgebra.Matrix.Gershgorin
import Mathlib.Analysis.Complex.ExponentialBounds
import Mathlib.Data.Int.Log
import Mathlib.Tactic.NormNum
/-!
# Properties of the matrix exponential (C37)
-/
namespace Acados.Math
open Finset Polynomial
variable {K : Type*} [Field K] [LinearOrder K] [IsStrictOrderedRing K]

/-- the `n × n` matrix stored in an array -/
def toMat (n : Nat) (A : Nat → Nat → K) : Matrix (Fin n) (Fin n) K := Matrix.of fun i j => A i j

/-- the array `Y` stores the polynomial `p` of the matrix stored in `A` -/
def Rep (n : Nat) (A Y : Nat → Nat → K) (p : K[X]) : Prop := toMat n Y = aeval (toMat n A) p

theorem Rep.base (n : Nat) (A : Nat → Nat → K) : Rep n A A X := by
  unfold Rep; rw [aeval_X]
theorem Rep.gemm {n : Nat} {A Y Z : Nat → Nat → K} {p q : K[X]} (h1 : Rep n A Y p) (h2 : Rep n A Z q) :
    Rep n A (gemm n Y Z) (p * q) := by
  unfold Rep at *
  rw [map_mul, ← h1, ← h2]
  ext i j
  rw [Matrix.mul_apply]
  simp only [toMat, Matrix.of_apply, Math.gemm]
  rw [← Fin.sum_univ_eq_sum_range (fun k => Y i k * Z k j)]
theorem Rep.axpy {n : Nat} {A Y Z : Nat → Nat → K} {p q : K[X]} (c : K) (h1 : Rep n A Y p)
    (h2 : Rep n A Z q) : Rep n A (axpy c Y Z) (q + C c * p) := by
  unfold Rep at *
  rw [map_add, map_mul, aeval_C, ← h1, ← h2]
  ext i j
  rw [Matrix.add_apply, Algebra.algebraMap_eq_smul_one, smul_mul_assoc, one_mul, Matrix.smul_apply]
  rfl
theorem Rep.scal {n : Nat} {A Y : Nat → Nat → K} {p : K[X]} (c : K) (h1 : Rep n A Y p) :
    Rep n A (scal c Y) (C c * p) := by
  unfold Rep at *
  rw [map_mul, aeval_C, ← h1]
  ext i j
  rw [Algebra.algebraMap_eq_smul_one, smul_mul_assoc, one_mul, Matrix.smul_apply]
  simp only [toMat, Matrix.of_apply, Math.scal, smul_eq_mul]
  ring
theorem Rep.eye (n : Nat) (A : Nat → Nat → K) : Rep n A eye 1 := by
  unfold Rep
  rw [map_one]
  ext i j
  rw [Matrix.one_apply]
  simp only [toMat, Matrix.of_apply, Math.eye, Fin.ext_iff]
theorem Rep.zero (n : Nat) (A : Nat → Nat → K) : Rep n A zeroM 0 := by
  unfold Rep
  rw [map_zero]; rfl
theorem Rep.scal_zero (n : Nat) (A Y : Nat → Nat → K) : Rep n A (Math.scal 0 Y) 0 := by
  unfold Rep
  rw [map_zero]
  ext i j
  simp only [toMat, Matrix.of_apply, Math.scal, mul_zero, Matrix.zero_apply]
theorem Rep.congr {n : Nat} {A Y : Nat → Nat → K} {p q : K[X]} (h : Rep n A Y p) (e : p = q) :
    Rep n A Y q := e ▸ h

/-! ### the solve -/

theorem pade_solve (tiny : K) (n : Nat) (A : Nat → Nat → K) (uv : UV K) (pD pN : K[X])
    (hD : Rep n A (Math.axpy (-1) uv.U uv.V) pD) (hN : Rep n A (Math.axpy 1 uv.U uv.V) pN)
    (hdet : (aeval (toMat n A) pD).det ≠ 0) :
    aeval (toMat n A) pD
      * toMat n (dgesv tiny n n ⟨Math.axpy (-1) uv.U uv.V, fun _ => 0, 0⟩ (Math.axpy 1 uv.U uv.V)).2
      = aeval (toMat n A) pN := by
  have hi := (C35_success_iff_nonsingular tiny n n (Math.axpy (-1) uv.U uv.V) (Math.axpy 1 uv.U uv.V)
    (fun _ => 0)).2 (by rw [← hD] at hdet; exact hdet)
  rw [← hD, ← hN]
  ext i j
  rw [Matrix.mul_apply]
  have := C35_solves tiny n n _ _ _ hi i i.2 j j.2
  rw [← Fin.sum_univ_eq_sum_range (fun k => (Math.axpy (-1) uv.U uv.V) i k *
    (dgesv tiny n n ⟨Math.axpy (-1) uv.U uv.V, fun _ => 0, 0⟩ (Math.axpy 1 uv.U uv.V)).2 k j)] at this
  exact this

/-! ### the polynomials computed by the branches -/

theorem pade3_rep (n : Nat) (t A : Nat → Nat → K) :
    Rep n A (Math.axpy (-1) (pade3 n t A).U (pade3 n t A).V) (padeD K 3) ∧
    Rep n A (Math.axpy 1 (pade3 n t A).U (pade3 n t A).V) (padeN K 3) := by
  have hA := Rep.base n A
  have h2 := hA.gemm hA
  have hU := hA.gemm ((Rep.eye n A).axpy 60 (h2.axpy 1 (Rep.scal_zero n A t)))
  have hV := (Rep.eye n A).axpy 120 (h2.axpy 12 (Rep.scal_zero n A zeroM))
  refine ⟨(Rep.axpy (-1) hU hV).congr ?_, (Rep.axpy 1 hU hV).congr ?_⟩
  · simp only [padeD, padeCoeff, sum_range_succ, sum_range_zero]
    norm_num [Nat.factorial, map_ofNat]
    ring
  · simp only [padeN, padeCoeff, sum_range_succ, sum_range_zero]
    norm_num [Nat.factorial, map_ofNat]
    ring

theorem pade5_rep (n : Nat) (A : Nat → Nat → K) :
    Rep n A (Math.axpy (-1) (pade5 n A).U (pade5 n A).V) (padeD K 5) ∧
    Rep n A (Math.axpy 1 (pade5 n A).U (pade5 n A).V) (padeN K 5) := by
  have hA := Rep.base n A
  have h2 := hA.gemm hA
  have h4 := h2.gemm h2
  have hU := hA.gemm ((Rep.eye n A).axpy 15120 (h2.axpy 420 h4))
  have hV := (Rep.eye n A).axpy 30240 (h2.axpy 3360 (h4.scal 30))
  refine ⟨(Rep.axpy (-1) hU hV).congr ?_, (Rep.axpy 1 hU hV).congr ?_⟩
  · simp only [padeD, padeCoeff, sum_range_succ, sum_range_zero]
    norm_num [Nat.factorial, map_ofNat]
    ring
  · simp only [padeN, padeCoeff, sum_range_succ, sum_range_zero]
    norm_num [Nat.factorial, map_ofNat]
    ring

theorem pade7_rep (n : Nat) (A : Nat → Nat → K) :
    Rep n A (Math.axpy (-1) (pade7 n A).U (pade7 n A).V) (padeD K 7) ∧
    Rep n A (Math.axpy 1 (pade7 n A).U (pade7 n A).V) (padeN K 7) := by
  have hA := Rep.base n A
  have h2 := hA.gemm hA
  have h4 := h2.gemm h2
  have h6 := h4.gemm h2
  have hU := hA.gemm (h6.axpy 1 (h4.axpy 1512 ((Rep.eye n A).axpy 8648640 (h2.axpy 277200
    (Rep.scal_zero n A zeroM)))))
  have hV := h6.axpy 56 (h4.axpy 25200 ((Rep.eye n A).axpy 17297280 (h2.axpy 1995840
    (Rep.scal_zero n A zeroM))))
  refine ⟨(Rep.axpy (-1) hU hV).congr ?_, (Rep.axpy 1 hU hV).congr ?_⟩
  · simp only [padeD, padeCoeff, sum_range_succ, sum_range_zero]
    norm_num [Nat.factorial, map_ofNat]
    ring
  · simp only [padeN, padeCoeff, sum_range_succ, sum_range_zero]
    norm_num [Nat.factorial, map_ofNat]
    ring

theorem pade9_rep (n : Nat) (A : Nat → Nat → K) :
    Rep n A (Math.axpy (-1) (pade9 n A).U (pade9 n A).V) (padeD K 9) ∧
    Rep n A (Math.axpy 1 (pade9 n A).U (pade9 n A).V) (padeN K 9) := by
  have hA := Rep.base n A
  have h2 := hA.gemm hA
  have h4 := h2.gemm h2
  have h6 := h4.gemm h2
  have h8 := h6.gemm h2
  have hU := hA.gemm (h6.axpy 3960 (h4.axpy 2162160 ((Rep.eye n A).axpy 8821612800 (h2.axpy 302702400 h8))))
  have hV := h6.axpy 110880 (h4.axpy 30270240 ((Rep.eye n A).axpy 17643225600 (h2.axpy 2075673600
    (h8.scal 90))))
  refine ⟨(Rep.axpy (-1) hU hV).congr ?_, (Rep.axpy 1 hU hV).congr ?_⟩
  · simp only [padeD, padeCoeff, sum_range_succ, sum_range_zero]
    norm_num [Nat.factorial, map_ofNat]
    ring
  · simp only [padeN, padeCoeff, sum_range_succ, sum_range_zero]
    norm_num [Nat.factorial, map_ofNat]
    ring

theorem pade13_rep (n : Nat) (A : Nat → Nat → K) :
    Rep n A (Math.axpy (-1) (pade13 n A).U (pade13 n A).V) (padeD K 13 - C 1323241919 * X ^ 8) ∧
    Rep n A (Math.axpy 1 (pade13 n A).U (pade13 n A).V) (padeN K 13 - C 1323241919 * X ^ 8) := by
  have hA := Rep.base n A
  have h2 := hA.gemm hA
  have h4 := h2.gemm h2
  have h6 := h4.gemm h2
  have hU0 := h6.axpy 1 (h4.axpy 16380 (h2.scal 40840800))
  have hU := hA.gemm ((Rep.eye n A).axpy 32382376266240000 (h2.axpy 1187353796428800
    (h4.axpy 10559470521600 (h6.axpy 33522128640 (h6.gemm hU0)))))
  have hV := (Rep.eye n A).axpy 64764752532480000 (h2.axpy 7771770303897600 (h4.axpy 129060195264000
    (h6.axpy 670442572800 (h6.gemm (h4.axpy 960960 (h6.axpy 182 h2))))))
  refine ⟨(Rep.axpy (-1) hU hV).congr ?_, (Rep.axpy 1 hU hV).congr ?_⟩
  · simp only [padeD, padeCoeff, sum_range_succ, sum_range_zero]
    norm_num [Nat.factorial, map_ofNat]
    ring
  · simp only [padeN, padeCoeff, sum_range_succ, sum_range_zero]
    norm_num [Nat.factorial, map_ofNat]
    ring

/-! ### column sums -/

/-- all absolute column sums are at most `c` -/
def ColLe {n : Nat} (M : Matrix (Fin n) (Fin n) K) (c : K) : Prop := ∀ j, ∑ i, |M i j| ≤ c

theorem ColLe.mul {n : Nat} {M N : Matrix (Fin n) (Fin n) K} {a b : K} (ha : 0 ≤ a) (h1 : ColLe M a)
    (h2 : ColLe N b) : ColLe (M * N) (a * b) := by
  intro j
  calc ∑ i, |(M * N) i j| ≤ ∑ i, ∑ k, |M i k| * |N k j| := by
        refine sum_le_sum fun i _ => ?_
        rw [Matrix.mul_apply]
        refine (abs_sum_le_sum_abs _ _).trans (le_of_eq (sum_congr rfl fun k _ => abs_mul _ _))
    _ = ∑ k, (∑ i, |M i k|) * |N k j| := by
        rw [sum_comm]
        exact sum_congr rfl fun k _ => by rw [sum_mul]
    _ ≤ ∑ k, a * |N k j| := sum_le_sum fun k _ => mul_le_mul_of_nonneg_right (h1 k) (abs_nonneg _)
    _ = a * ∑ k, |N k j| := by rw [mul_sum]
    _ ≤ a * b := mul_le_mul_of_nonneg_left (h2 j) ha
theorem ColLe.one {n : Nat} : ColLe (1 : Matrix (Fin n) (Fin n) K) 1 := by
  intro j
  have : ∀ i, |(1 : Matrix (Fin n) (Fin n) K) i j| = if i = j then 1 else 0 := by
    intro i
    rw [Matrix.one_apply]
    split <;> simp
  simp only [this, sum_ite_eq', mem_univ, if_true, le_refl]
theorem ColLe.pow {n : Nat} {M : Matrix (Fin n) (Fin n) K} {a : K} (ha : 0 ≤ a) (h : ColLe M a) (k : Nat) :
    ColLe (M ^ k) (a ^ k) := by
  induction k with
  | zero => simpa using ColLe.one
  | succ k ih =>
    rw [pow_succ, pow_succ]
    exact ih.mul (pow_nonneg ha k) h

theorem ColLe.poly {n : Nat} {M : Matrix (Fin n) (Fin n) K} {a : K} (ha : 0 ≤ a) (h : ColLe M a)
    (N : Nat) (e : Nat → K) :
    ColLe (aeval M (∑ k ∈ range N, C (e k) * X ^ k)) (∑ k ∈ range N, |e k| * a ^ k) := by
  induction N with
  | zero => intro j; simp
  | succ N ih =>
    intro j
    rw [sum_range_succ, sum_range_succ, map_add, map_mul, aeval_C, map_pow, aeval_X,
      Algebra.algebraMap_eq_smul_one, smul_mul_assoc, one_mul]
    calc ∑ i, |((aeval M) (∑ k ∈ range N, C (e k) * X ^ k) + e N • M ^ N) i j|
        ≤ ∑ i, (|((aeval M) (∑ k ∈ range N, C (e k) * X ^ k)) i j| + |e N| * |(M ^ N) i j|) := by
          refine sum_le_sum fun i _ => ?_
          rw [Matrix.add_apply, Matrix.smul_apply, smul_eq_mul]
          refine (abs_add_le _ _).trans (le_of_eq ?_)
          rw [abs_mul]
      _ = (∑ i, |((aeval M) (∑ k ∈ range N, C (e k) * X ^ k)) i j|) + |e N| * ∑ i, |(M ^ N) i j| := by
          rw [sum_add_distrib, mul_sum]
      _ ≤ _ := add_le_add (ih j) (mul_le_mul_of_nonneg_left ((h.pow ha N) j) (abs_nonneg _))

/-- a matrix `c * 1 + E` with absolute column sums of `E` below `c` is nonsingular -/
theorem det_one_add_ne_zero {n : Nat} {E : Matrix (Fin n) (Fin n) K} {a c : K} (h : ColLe E a) (hc : 0 < c)
    (ha : a < c) : (c • (1 : Matrix (Fin n) (Fin n) K) + E).det ≠ 0 := by
  intro h0
  obtain ⟨v, hv0, hv⟩ := Matrix.exists_vecMul_eq_zero_iff.2 h0
  -- the entry of largest absolute value
  obtain ⟨k, hk⟩ : ∃ k, v k ≠ 0 := by
    by_contra hcon
    push Not at hcon
    exact hv0 (funext hcon)
  obtain ⟨j, -, hj⟩ := exists_max_image univ (fun i => |v i|) ⟨k, mem_univ k⟩
  have hpos : 0 < |v j| := lt_of_lt_of_le (abs_pos.2 hk) (hj k (mem_univ k))
  have h1 := congrFun hv j
  rw [Matrix.vecMul_add, Matrix.vecMul_smul, Matrix.vecMul_one, Pi.add_apply, Pi.zero_apply, Pi.smul_apply,
    smul_eq_mul] at h1
  have h2 : c * |v j| ≤ a * |v j| := by
    have : c * v j = - (Matrix.vecMul v E) j := by linear_combination h1
    calc c * |v j| = |c * v j| := by rw [abs_mul, abs_of_pos hc]
      _ = |∑ i, v i * E i j| := by rw [this, abs_neg]; rfl
      _ ≤ ∑ i, |v i| * |E i j| :=
          (abs_sum_le_sum_abs _ _).trans (le_of_eq (sum_congr rfl fun i _ => abs_mul _ _))
      _ ≤ ∑ i, |v j| * |E i j| :=
          sum_le_sum fun i _ => mul_le_mul_of_nonneg_right (hj i (mem_univ i)) (abs_nonneg _)
      _ = |v j| * ∑ i, |E i j| := by rw [mul_sum]
      _ ≤ |v j| * a := mul_le_mul_of_nonneg_left (h j) (abs_nonneg _)
      _ = a * |v j| := mul_comm _ _
  nlinarith

theorem det_poly_ne_zero {n : Nat} {M : Matrix (Fin n) (Fin n) K} {a c : K} (ha : 0 ≤ a) (h : ColLe M a)
    (D Q : K[X]) (N : Nat) (e : Nat → K) (hc : 0 < c)
    (hDQ : D * Q = C c + ∑ k ∈ range N, C (e k) * X ^ k)
    (he : ∑ k ∈ range N, |e k| * a ^ k < c) : (aeval M D).det ≠ 0 := by
  intro h0
  have h1 := congrArg (fun p => (aeval M p).det) hDQ
  simp only [map_mul, Matrix.det_mul, h0, zero_mul, map_add, aeval_C] at h1
  have h2 := det_one_add_ne_zero (h.poly ha N e) hc he
  rw [Algebra.algebraMap_eq_smul_one] at h1
  exact h2 h1.symm

/-! ### nonsingular denominators -/

theorem det3_ne_zero {n : Nat} {M : Matrix (Fin n) (Fin n) K} (h : ColLe M (theta 0)) :
    (aeval M (padeD K 3)).det ≠ 0 := by
  refine det_poly_ne_zero (a := theta 0) (c := 120) (by norm_num [theta]) h _ 1 4
    (fun k => [0, -60, 12, -1].getD k 0) (by norm_num) ?_ ?_
  · simp only [padeD, padeCoeff, sum_range_succ, sum_range_zero]
    norm_num [Nat.factorial, map_ofNat]
    try ring
  · simp only [sum_range_succ, sum_range_zero, List.getD_cons_zero, List.getD_cons_succ, theta]
    norm_num [abs_of_pos, abs_of_neg]

theorem det5_ne_zero {n : Nat} {M : Matrix (Fin n) (Fin n) K} (h : ColLe M (theta 1)) :
    (aeval M (padeD K 5)).det ≠ 0 := by
  refine det_poly_ne_zero (a := theta 1) (c := 30240) (by norm_num [theta]) h _ 1 6
    (fun k => [0, -15120, 3360, -420, 30, -1].getD k 0) (by norm_num) ?_ ?_
  · simp only [padeD, padeCoeff, sum_range_succ, sum_range_zero]
    norm_num [Nat.factorial, map_ofNat]
    try ring
  · simp only [sum_range_succ, sum_range_zero, List.getD_cons_zero, List.getD_cons_succ, theta]
    norm_num [abs_of_pos, abs_of_neg]

theorem det7_ne_zero {n : Nat} {M : Matrix (Fin n) (Fin n) K} (h : ColLe M (theta 2)) :
    (aeval M (padeD K 7)).det ≠ 0 := by
  refine det_poly_ne_zero (a := theta 2) (c := 17297280) (by norm_num [theta]) h _ 1 8
    (fun k => [0, -8648640, 1995840, -277200, 25200, -1512, 56, -1].getD k 0) (by norm_num) ?_ ?_
  · simp only [padeD, padeCoeff, sum_range_succ, sum_range_zero]
    norm_num [Nat.factorial, map_ofNat]
    try ring
  · simp only [sum_range_succ, sum_range_zero, List.getD_cons_zero, List.getD_cons_succ, theta]
    norm_num [abs_of_pos, abs_of_neg]

theorem det9_ne_zero {n : Nat} {M : Matrix (Fin n) (Fin n) K} (h : ColLe M (theta 3)) :
    (aeval M (padeD K 9)).det ≠ 0 := by
  refine det_poly_ne_zero (a := theta 3) (c := 141145804800) (by norm_num [theta]) h _ (8 + 4 * X + X ^ 2) 12
    (fun k => [0, 0, -1037836800, -2940537600, 1107025920, -198918720, 22508640, -1750320, 95760, -3608, 86, -1].getD k 0) (by norm_num) ?_ ?_
  · simp only [padeD, padeCoeff, sum_range_succ, sum_range_zero]
    norm_num [Nat.factorial, map_ofNat]
    try ring
  · simp only [sum_range_succ, sum_range_zero, List.getD_cons_zero, List.getD_cons_succ, theta]
    norm_num [abs_of_pos, abs_of_neg]

/-! ### the norm -/

theorem onenormCol_eq (n : Nat) (hn : 0 < n) (A : Nat → Nat → K) (j : Nat) :
    onenormCol n A j = ∑ i ∈ range n, |A i j| := by
  have key : ∀ m, (List.range' 1 m).foldl (fun t i => t + |A i j|) |A 0 j| = ∑ i ∈ range (m + 1), |A i j| := by
    intro m
    induction m with
    | zero => simp
    | succ m ih =>
      rw [List.range'_concat, List.foldl_append, ih, sum_range_succ _ (m + 1)]
      simp only [List.foldl_cons, List.foldl_nil, one_mul, Nat.add_comm 1 m]
  unfold onenormCol
  rw [key, Nat.sub_add_cancel hn]

theorem onenorm_aux (n : Nat) (A : Nat → Nat → K) (m : Nat) (hm : m ≤ n) :
    let r := (List.range m).foldl (fun mx j =>
      let temp := onenormCol n A j
      if j = 0 then temp else if temp > mx then temp else mx) 0
    (∀ j < m, ∑ i ∈ range n, |A i j| ≤ r) ∧ (0 < m → ∃ j < m, r = ∑ i ∈ range n, |A i j|) ∧ (m = 0 → r = 0) := by
  induction m with
  | zero => exact ⟨fun j hj => by omega, fun h => by omega, fun _ => rfl⟩
  | succ m ih =>
    obtain ⟨h1, h2, _⟩ := ih (by omega)
    simp only [List.range_succ, List.foldl_append, List.foldl_cons, List.foldl_nil]
    generalize (List.range m).foldl (fun mx j =>
      let temp := onenormCol n A j
      if j = 0 then temp else if temp > mx then temp else mx) 0 = r at h1 h2
    rw [onenormCol_eq n (by omega)]
    by_cases h0 : m = 0
    · subst h0
      rw [if_pos rfl]
      refine ⟨fun j hj => ?_, fun _ => ⟨0, by omega, rfl⟩, fun h => by omega⟩
      have : j = 0 := by omega
      rw [this]
    · rw [if_neg h0]
      split
      · next h =>
        refine ⟨fun j hj => ?_, fun _ => ⟨m, by omega, rfl⟩, fun h => by omega⟩
        rcases Nat.lt_or_ge j m with h' | h'
        · exact (h1 j h').trans h.le
        · have : j = m := by omega
          rw [this]
      · next h =>
        refine ⟨fun j hj => ?_, fun _ => ?_, fun h => by omega⟩
        · rcases Nat.lt_or_ge j m with h' | h'
          · exact h1 j h'
          · have : j = m := by omega
            rw [this]; exact not_lt.1 h
        · obtain ⟨j, hj, e⟩ := h2 (by omega)
          exact ⟨j, by omega, e⟩

theorem onenorm_colLe (n : Nat) (A : Nat → Nat → K) (c : K) (h : onenorm n A ≤ c) : ColLe (toMat n A) c := by
  intro j
  have := (onenorm_aux n A n le_rfl).1 j j.2
  rw [← Fin.sum_univ_eq_sum_range (fun i => |A i j|)] at this
  exact this.trans h

/-! ## Theorems -/

theorem coeff_padeD (m k : Nat) :
    PowerSeries.coeff k (padeD K m : PowerSeries K) = if k ≤ m then (-1) ^ k * padeCoeff K m k else 0 := by
  rw [Polynomial.coeff_coe, padeD, finset_sum_coeff]
  simp only [coeff_C_mul, coeff_X_pow]
  by_cases h : k ≤ m
  · rw [if_pos h, sum_eq_single k (fun i _ hi => by rw [if_neg (Ne.symm hi), mul_zero])
      (fun hk => absurd (mem_range.2 (by omega)) hk), if_pos rfl, mul_one]
  · rw [if_neg h]
    refine sum_eq_zero fun i hi => ?_
    have := mem_range.1 hi
    rw [if_neg (by omega), mul_zero]
theorem coeff_padeN (m k : Nat) :
    PowerSeries.coeff k (padeN K m : PowerSeries K) = if k ≤ m then padeCoeff K m k else 0 := by
  rw [Polynomial.coeff_coe, padeN, finset_sum_coeff]
  simp only [coeff_C_mul, coeff_X_pow]
  by_cases h : k ≤ m
  · rw [if_pos h, sum_eq_single k (fun i _ hi => by rw [if_neg (Ne.symm hi), mul_zero])
      (fun hk => absurd (mem_range.2 (by omega)) hk), if_pos rfl, mul_one]
  · rw [if_neg h]
    refine sum_eq_zero fun i hi => ?_
    have := mem_range.1 hi
    rw [if_neg (by omega), mul_zero]

theorem order_rat (m : Nat) (hm : m = 3 ∨ m = 5 ∨ m = 7 ∨ m = 9 ∨ m = 13) (k : Nat) (hk : k ≤ 2 * m) :
    ∑ i ∈ range (k + 1), (if i ≤ m then (-1) ^ i * padeCoeff ℚ m i else 0) * (1 / ((k - i).factorial : ℚ))
      = if k ≤ m then padeCoeff ℚ m k else 0 := by
  rcases hm with rfl | rfl | rfl | rfl | rfl
  · revert k; decide +kernel
  · revert k; decide +kernel
  · revert k; decide +kernel
  · revert k; decide +kernel
  · revert k; decide +kernel

theorem padeCoeff_cast (m k : Nat) : ((padeCoeff ℚ m k : ℚ) : K) = padeCoeff K m k := by
  unfold padeCoeff
  push_cast
  rfl

/-- **C37** (part) the diagonal approximants have the maximal order of accuracy: `padeD m * exp - padeN m`
vanishes to order `2m + 1`, for all degrees used by the code -/
theorem C37_order (m : Nat) (hm : m = 3 ∨ m = 5 ∨ m = 7 ∨ m = 9 ∨ m = 13) (k : Nat) (hk : k ≤ 2 * m) :
    PowerSeries.coeff k ((padeD K m : PowerSeries K) * expSeries K)
      = PowerSeries.coeff k (padeN K m : PowerSeries K) := by
  rw [PowerSeries.coeff_mul, Nat.sum_antidiagonal_eq_sum_range_succ_mk]
  simp only [coeff_padeD, coeff_padeN, expSeries, PowerSeries.coeff_mk]
  have h := congrArg (fun q : ℚ => (q : K)) (order_rat m hm k hk)
  simp only [Rat.cast_sum] at h
  have e : ∀ i, ((((if i ≤ m then (-1) ^ i * padeCoeff ℚ m i else 0) * (1 / ((k - i).factorial : ℚ)) : ℚ)) : K)
      = (if i ≤ m then (-1) ^ i * padeCoeff K m i else 0) * (1 / ((k - i).factorial : K)) := by
    intro i
    split
    · rw [← padeCoeff_cast (K := K)]; push_cast; rfl
    · push_cast; rfl
  simp only [e] at h
  rw [h]
  split
  · rw [padeCoeff_cast]
  · push_cast; rfl

/-- **C37** For matrices with one-norm up to `2.0978…` the matrix exponential routine returns the diagonal
Padé approximant of the exponential of a degree `m` in 3, 5, 7, 9: the denominator `padeD m` evaluated at
the matrix is nonsingular and the result times the denominator is the numerator.  This holds whatever
the uninitialised array contains (real numbers) and for every size. -/
theorem C37_expm_partial (tiny : K) (fx : K → K × Int) (n : Nat) (temp0 A : Nat → Nat → K)
    (hA : onenorm n A ≤ theta 3) :
    ∃ m ∈ [3, 5, 7, 9], ∃ Y, expm tiny fx n temp0 A = some Y ∧
      (aeval (toMat n A) (padeD K m)).det ≠ 0 ∧
      aeval (toMat n A) (padeD K m) * toMat n Y = aeval (toMat n A) (padeN K m) := by
  have h34 : (theta 3 : K) ≤ theta 4 := by norm_num [theta]
  have h4 := hA.trans h34
  unfold expm
  simp only [if_pos h4, if_pos hA]
  by_cases h0 : onenorm n A ≤ theta 0
  · rw [if_pos h0]
    obtain ⟨hD, hN⟩ := pade3_rep n temp0 A
    have hd := det3_ne_zero (onenorm_colLe n A _ h0)
    exact ⟨3, by simp, _, rfl, hd, pade_solve tiny n A _ _ _ hD hN hd⟩
  rw [if_neg h0]
  by_cases h1 : onenorm n A ≤ theta 1
  · rw [if_pos h1]
    obtain ⟨hD, hN⟩ := pade5_rep n A
    have hd := det5_ne_zero (onenorm_colLe n A _ h1)
    exact ⟨5, by simp, _, rfl, hd, pade_solve tiny n A _ _ _ hD hN hd⟩
  rw [if_neg h1]
  by_cases h2 : onenorm n A ≤ theta 2
  · rw [if_pos h2]
    obtain ⟨hD, hN⟩ := pade7_rep n A
    have hd := det7_ne_zero (onenorm_colLe n A _ h2)
    exact ⟨7, by simp, _, rfl, hd, pade_solve tiny n A _ _ _ hD hN hd⟩
  rw [if_neg h2]
  obtain ⟨hD, hN⟩ := pade9_rep n A
  have hd := det9_ne_zero (onenorm_colLe n A _ hA)
  exact ⟨9, by simp, _, rfl, hd, pade_solve tiny n A _ _ _ hD hN hd⟩

/-- a matrix with one-norm 1.5, so that the degree 9 branch runs -/
example : onenorm 2 (fun i j => if i = j then (1/2 : ℚ) else 1) = 3/2 ∧ (3/2 : ℚ) ≤ theta 3 := by
  decide +kernel

/-- **C37** (part) For one-norms in `(2.0978…, 5.3719…]` the routine solves a linear system whose matrix and
right-hand side are the degree 13 polynomials with the coefficient of `A^8` equal to 1 instead of
1323241920. -/
theorem C37_degree13_actual (tiny : K) (fx : K → K × Int) (n : Nat) (temp0 A : Nat → Nat → K)
    (h3 : theta 3 < onenorm n A) (h4 : onenorm n A ≤ theta 4)
    (hdet : (aeval (toMat n A) (padeD K 13 - C 1323241919 * X ^ 8)).det ≠ 0) :
    ∃ Y, expm tiny fx n temp0 A = some Y ∧
      aeval (toMat n A) (padeD K 13 - C 1323241919 * X ^ 8) * toMat n Y
        = aeval (toMat n A) (padeN K 13 - C 1323241919 * X ^ 8) := by
  have e01 : (theta 0 : K) ≤ theta 3 := by norm_num [theta]
  have e11 : (theta 1 : K) ≤ theta 3 := by norm_num [theta]
  have e21 : (theta 2 : K) ≤ theta 3 := by norm_num [theta]
  obtain ⟨hD, hN⟩ := pade13_rep n A
  refine ⟨_, ?_, pade_solve tiny n A _ _ _ hD hN hdet⟩
  unfold expm
  simp only [if_pos h4, if_neg (not_le.2 (e01.trans_lt h3)), if_neg (not_le.2 (e11.trans_lt h3)),
    if_neg (not_le.2 (e21.trans_lt h3)), if_neg (not_le.2 h3)]
  rfl

/-- **C37 is false** for larger matrices: for the 1×1 matrix `5` the routine returns a value more than 12%
above `exp 5` -/
theorem C37_expm_wrong (tiny : ℝ) (fx : ℝ → ℝ × Int) (temp0 : Nat → Nat → ℝ) :
    ∃ Y, expm tiny fx 1 temp0 (fun _ _ => 5) = some Y ∧ Y 0 0 > 1.12 * Real.exp 5 := by
  have hn : onenorm 1 (fun _ _ => (5 : ℝ)) = 5 := by
    simp [onenorm, onenormCol]
  have hev : ∀ p : ℝ[X], ∀ i j, (aeval (toMat 1 (fun _ _ => (5 : ℝ))) p) i j = p.eval 5 := by
    intro p i j
    have h1 : toMat 1 (fun _ _ => (5 : ℝ)) = algebraMap ℝ _ 5 := by
      ext i j
      rw [Subsingleton.elim i j, Algebra.algebraMap_eq_smul_one, Matrix.smul_apply, Matrix.one_apply_eq]
      simp [toMat]
    rw [h1, Polynomial.aeval_algebraMap_apply_eq_algebraMap_eval, Subsingleton.elim i j, Algebra.algebraMap_eq_smul_one, Matrix.smul_apply,
      Matrix.one_apply_eq, smul_eq_mul, mul_one]
  have hD : (padeD ℝ 13 - C 1323241919 * X ^ 8).eval 5 = 4177790401213750 := by
    simp only [padeD, padeCoeff, sum_range_succ, sum_range_zero]
    norm_num [Nat.factorial]
  have hN : (padeN ℝ 13 - C 1323241919 * X ^ 8).eval 5 = 696235661956595000 := by
    simp only [padeN, padeCoeff, sum_range_succ, sum_range_zero]
    norm_num [Nat.factorial]
  have hdet : (aeval (toMat 1 (fun _ _ => (5 : ℝ))) (padeD ℝ 13 - C 1323241919 * X ^ 8)).det ≠ 0 := by
    rw [Matrix.det_fin_one, hev, hD]
    norm_num
  obtain ⟨Y, hY, hsol⟩ := C37_degree13_actual tiny fx 1 temp0 (fun _ _ => 5)
    (by rw [hn]; norm_num [theta]) (by rw [hn]; norm_num [theta]) hdet
  refine ⟨Y, hY, ?_⟩
  have h := congrFun (congrFun hsol 0) 0
  rw [Matrix.mul_apply, Fin.sum_univ_one, hev, hev, hD, hN] at h
  simp only [toMat, Matrix.of_apply] at h
  have he := Real.exp_one_lt_d9
  have he5 : Real.exp 5 = Real.exp 1 ^ 5 := by rw [← Real.exp_nat_mul]; norm_num
  have hlt : Real.exp 5 < 2.7182818286 ^ 5 := by
    rw [he5]; exact pow_lt_pow_left₀ he (Real.exp_pos 1).le (by norm_num)
  have hy : Y 0 0 = 696235661956595000 / 4177790401213750 := by
    rw [eq_div_iff (by norm_num)]
    have h' : (4177790401213750 : ℝ) * Y 0 0 = 696235661956595000 := h
    linear_combination h'
  rw [hy]
  refine lt_trans (mul_lt_mul_of_pos_left hlt (by norm_num)) ?_
  norm_num

theorem squarings_pow (n : Nat) (s : Nat) (Y : Nat → Nat → K) :
    toMat n (squarings n s Y) = toMat n Y ^ (2 ^ s) := by
  induction s generalizing Y with
  | zero => simp [squarings]
  | succ s ih =>
    rw [squarings, ih]
    have : toMat n (Math.gemm n Y Y) = toMat n Y ^ 2 := by
      have := (Rep.base n Y).gemm (Rep.base n Y)
      unfold Rep at this
      rw [this, map_mul, aeval_X, pow_two]
    rw [this, ← pow_mul, pow_succ 2 s, Nat.mul_comm]

/-- **C37** (part) for larger norms the matrix is divided by the smallest power of two that brings the
one-norm to at most `5.3719…` and the degree 13 result is squared as many times: the result is its
`2^s`-th power.  The hypothesis states what `frexp` returns. -/
theorem C37_scaling_partial (tiny : K) (fx : K → K × Int)
    (hfx : ∀ y, 0 < y → y = (fx y).1 * (2 : K) ^ (fx y).2 ∧ 1 / 2 ≤ (fx y).1 ∧ (fx y).1 < 1)
    (n : Nat) (temp0 A : Nat → Nat → K) (h4 : theta 4 < onenorm n A) :
    ∃ s : Nat, 0 < s ∧ onenorm n A / 2 ^ s ≤ theta 4 ∧ theta 4 < onenorm n A / 2 ^ (s - 1) ∧
      ∃ Y, padeapprox tiny 13 n temp0 (fun i j => A i j / 2 ^ s) = some Y ∧
        ∃ Z, expm tiny fx n temp0 A = some Z ∧ toMat n Z = toMat n Y ^ (2 ^ s) := by
  have hth : (0 : K) < theta 4 := by norm_num [theta]
  have hpos : 0 < onenorm n A := hth.trans h4
  have hy1 : 1 < onenorm n A / theta 4 := (one_lt_div hth).2 h4
  obtain ⟨hy, hlo, hhi⟩ := hfx (onenorm n A / theta 4) (by linarith)
  have hex : expm tiny fx n temp0 A = (padeapprox tiny 13 n temp0
      (scal ((2 : K) ^ (-((fx (onenorm n A / theta 4)).2
        - (if (fx (onenorm n A / theta 4)).1 = 1 / 2 then 1 else 0)))) A)).map
      (squarings n ((fx (onenorm n A / theta 4)).2
        - (if (fx (onenorm n A / theta 4)).1 = 1 / 2 then 1 else 0)).toNat) := by
    unfold expm
    simp only [if_neg (not_le.2 h4)]
  generalize hz : (fx (onenorm n A / theta 4)).2
        - (if (fx (onenorm n A / theta 4)).1 = 1 / 2 then 1 else 0) = z at hex
  -- `2^(z-1) < norm / theta ≤ 2^z`
  have hup : onenorm n A / theta 4 ≤ (2 : K) ^ z ∧ (2 : K) ^ (z - 1) < onenorm n A / theta 4 := by
    have h2 : (0 : K) < 2 ^ (fx (onenorm n A / theta 4)).2 := zpow_pos (by norm_num) _
    by_cases ht : (fx (onenorm n A / theta 4)).1 = 1 / 2
    · rw [if_pos ht] at hz
      have e : (fx (onenorm n A / theta 4)).2 = z + 1 := by omega
      rw [ht, e, zpow_add₀ (by norm_num), zpow_one] at hy
      have hz' : (0 : K) < 2 ^ z := zpow_pos (by norm_num) _
      rw [zpow_sub₀ (by norm_num), zpow_one]
      constructor <;> linarith
    · rw [if_neg ht, sub_zero] at hz
      rw [hz] at hy h2
      rw [zpow_sub₀ (by norm_num), zpow_one]
      have : 1 / 2 < (fx (onenorm n A / theta 4)).1 := lt_of_le_of_ne hlo (Ne.symm ht)
      constructor <;> nlinarith
  have hzpos : 0 < z := by
    by_contra hneg
    have : (2 : K) ^ z ≤ 1 := zpow_le_one_of_nonpos₀ (by norm_num) (by omega)
    linarith [hup.1]
  obtain ⟨s, rfl⟩ : ∃ s : Nat, z = (s : Int) := ⟨z.toNat, by omega⟩
  have hs : 0 < s := by omega
  refine ⟨s, hs, ?_, ?_, ?_⟩
  · have := hup.1
    rw [zpow_natCast, div_le_iff₀ hth] at this
    rw [div_le_iff₀ (by positivity)]
    linarith
  · have := hup.2
    have e : ((s : Int) - 1) = ((s - 1 : Nat) : Int) := by omega
    rw [e, zpow_natCast, lt_div_iff₀ hth] at this
    rw [lt_div_iff₀ (by positivity)]
    linarith
  · have hsc : scal ((2 : K) ^ (-(s : Int))) A = fun i j => A i j / 2 ^ s := by
      funext i j
      unfold scal
      rw [zpow_neg, zpow_natCast, div_eq_mul_inv]
    rw [hsc] at hex
    refine ⟨_, rfl, _, hex, ?_⟩
    rw [Int.toNat_natCast, squarings_pow]

/-- the hypothesis on `frexp` is satisfiable: such a function exists over the reals -/
theorem frexp_exists : ∃ fx : ℝ → ℝ × Int,
    ∀ y, 0 < y → y = (fx y).1 * (2 : ℝ) ^ (fx y).2 ∧ 1 / 2 ≤ (fx y).1 ∧ (fx y).1 < 1 := by
  refine ⟨fun y => (y / 2 ^ (Int.log 2 y + 1), Int.log 2 y + 1), fun y hy => ?_⟩
  have h1 := Int.zpow_log_le_self (b := 2) (by norm_num) hy
  have h2 := Int.lt_zpow_succ_log_self (b := 2) (by norm_num) y
  push_cast at h1 h2
  have hp : (0 : ℝ) < 2 ^ (Int.log 2 y + 1) := zpow_pos (by norm_num) _
  refine ⟨by simp only; field_simp, ?_, ?_⟩
  · simp only
    rw [le_div_iff₀ hp, zpow_add₀ (by norm_num), zpow_one]
    linarith
  · simp only
    rw [div_lt_one hp]; exact h2

end Acados.Math
