import Verif.Lemmas.LinSolve
import Mathlib.LinearAlgebra.Matrix.NonsingularInverse
import Mathlib.LinearAlgebra.Matrix.ToLinearEquiv
import Mathlib.LinearAlgebra.Lagrange
import Mathlib.Tactic.FieldSimp
/-!
# Properties of the dense linear solver (C35) and of Neville's interpolation (C36)
-/
namespace Acados.Math
open Finset
variable {K : Type*} [Field K] [LinearOrder K] [IsStrictOrderedRing K]

theorem dgetf2_square (tiny : K) (n : Nat) (s : Lu K) :
    dgetf2 tiny n n s = (List.range n).foldl (luStep tiny n n) s := by
  unfold dgetf2
  split
  · next h =>
    have : n = 0 := by omega
    subst this; rfl
  · rw [Nat.min_self]

/-- **C35** Whenever the solver reports no singularity, the array it returns solves the linear system,
for every size, every number of right-hand sides, every matrix and every content of the pivot array. -/
theorem C35_solves (tiny : K) (n nrhs : Nat) (A B : Nat → Nat → K) (ipiv : Nat → Nat)
    (hinfo : (dgesv tiny n nrhs ⟨A, ipiv, 0⟩ B).1.info = 0) (i : Nat) (hi : i < n) (j : Nat) (hj : j < nrhs) :
    ∑ k ∈ range n, A i k * (dgesv tiny n nrhs ⟨A, ipiv, 0⟩ B).2 k j = B i j := by
  have hf : (dgesv tiny n nrhs ⟨A, ipiv, 0⟩ B).1 = (List.range n).foldl (luStep tiny n n) ⟨A, ipiv, 0⟩ := by
    unfold dgesv
    simp only [dgetf2_square]
    split <;> rfl
  rw [hf] at hinfo
  have hinv := (lu_loop tiny A n ipiv n le_rfl).1 hinfo
  have hx : (dgesv tiny n nrhs ⟨A, ipiv, 0⟩ B).2 = dgetrs n nrhs
      ((List.range n).foldl (luStep tiny n n) ⟨A, ipiv, 0⟩).A
      ((List.range n).foldl (luStep tiny n n) ⟨A, ipiv, 0⟩).ipiv B := by
    unfold dgesv
    simp only [dgetf2_square]
    rw [if_pos hinfo]
  rw [hx]
  generalize (List.range n).foldl (luStep tiny n n) ⟨A, ipiv, 0⟩ = s at hinv
  unfold dgetrs
  rw [if_neg (by omega)]
  refine lu_solves A n s hinv (fun i => B i j) (fun i => dtrsmLlnu n nrhs s.A (dlaswp nrhs n s.ipiv B) i j)
    (fun i => dtrsmLunn n nrhs s.A (dtrsmLlnu n nrhs s.A (dlaswp nrhs n s.ipiv B)) i j)
    (fun i hi => ?_) (fun i hi => lunn_eq n nrhs s.A _ hinv.piv i j hi hj) i hi
  rw [llnu_eq n nrhs s.A (dlaswp nrhs n s.ipiv B) i j hi hj, dlaswp_eq nrhs n s.ipiv B i j hj]

/-- **C35** When the solver reports a singularity, the matrix really is singular: some nonzero vector is
mapped to zero; and the right-hand side is left unchanged. -/
theorem C35_singular (tiny : K) (n nrhs : Nat) (A B : Nat → Nat → K) (ipiv : Nat → Nat)
    (hinfo : (dgesv tiny n nrhs ⟨A, ipiv, 0⟩ B).1.info ≠ 0) :
    (dgesv tiny n nrhs ⟨A, ipiv, 0⟩ B).2 = B ∧
    ∃ v : Nat → K, (∃ k < n, v k ≠ 0) ∧ ∀ i < n, ∑ k ∈ range n, A i k * v k = 0 := by
  have hf : (dgesv tiny n nrhs ⟨A, ipiv, 0⟩ B).1 = (List.range n).foldl (luStep tiny n n) ⟨A, ipiv, 0⟩ := by
    unfold dgesv
    simp only [dgetf2_square]
    split <;> rfl
  rw [hf] at hinfo
  constructor
  · unfold dgesv
    simp only [dgetf2_square]
    rw [if_neg hinfo]
  obtain ⟨j0, hj0, _, s, hinv, hzero⟩ := (lu_loop tiny A n ipiv n le_rfl).2 hinfo
  obtain ⟨_, _, hmax⟩ := pivRow_spec n j0 hj0 s.A
  have hz : ∀ i, j0 ≤ i → i < n → s.A i j0 = 0 := by
    intro i h1 h2
    have := hmax i h1 h2
    rw [hzero, abs_zero] at this
    exact abs_nonpos_iff.1 this
  exact lu_singular A n j0 hj0 s hinv hz

/-- **C35** the solver reports success exactly when the determinant is nonzero -/
theorem C35_success_iff_nonsingular (tiny : K) (n nrhs : Nat) (A B : Nat → Nat → K) (ipiv : Nat → Nat) :
    (dgesv tiny n nrhs ⟨A, ipiv, 0⟩ B).1.info = 0
      ↔ (Matrix.of fun i j : Fin n => A i j).det ≠ 0 := by
  constructor
  · intro h
    -- the factorisation does not depend on the right-hand side: solve for the identity
    have h' : (dgesv tiny n n ⟨A, ipiv, 0⟩ (fun i j => if i = j then 1 else 0)).1.info = 0 := by
      have e : ∀ m (B : Nat → Nat → K), (dgesv tiny n m ⟨A, ipiv, 0⟩ B).1 = dgetf2 tiny n n ⟨A, ipiv, 0⟩ := by
        intro m B
        unfold dgesv
        simp only
        split <;> rfl
      rw [e] at h ⊢
      exact h
    let X : Matrix (Fin n) (Fin n) K := Matrix.of fun i j =>
      (dgesv tiny n n ⟨A, ipiv, 0⟩ (fun i j => if i = j then 1 else 0)).2 i j
    have hX : (Matrix.of fun i j : Fin n => A i j) * X = 1 := by
      ext i j
      rw [Matrix.mul_apply, Matrix.one_apply]
      have := C35_solves tiny n n A (fun i j => if i = j then 1 else 0) ipiv h' i i.2 j j.2
      rw [← Fin.sum_univ_eq_sum_range
        (fun k => A i k * (dgesv tiny n n ⟨A, ipiv, 0⟩ (fun i j => if i = j then 1 else 0)).2 k j)] at this
      simp only [Matrix.of_apply, X]
      rw [this]
      simp only [Fin.ext_iff]
    have := congrArg Matrix.det hX
    rw [Matrix.det_mul, Matrix.det_one] at this
    intro h0
    rw [h0, zero_mul] at this
    exact zero_ne_one this
  · intro hdet
    by_contra h
    obtain ⟨_, v, ⟨k, hk, hvk⟩, hv⟩ := C35_singular tiny n nrhs A B ipiv h
    refine hdet ?_
    refine Matrix.exists_mulVec_eq_zero_iff.1 ⟨fun i : Fin n => v i, ?_, ?_⟩
    · intro h0
      exact hvk (congrFun h0 ⟨k, hk⟩)
    · ext i
      have := hv i i.2
      rw [← Fin.sum_univ_eq_sum_range (fun k => A i k * v k)] at this
      exact this

/-- **C35** (remark) a nonzero `info` on entry disables the solver: the right-hand side is returned
unchanged although the matrix may be nonsingular -/
theorem C35_stale_info (tiny : K) (n nrhs : Nat) (A B : Nat → Nat → K) (ipiv : Nat → Nat) (info : Nat)
    (h : info ≠ 0) : (dgesv tiny n nrhs ⟨A, ipiv, info⟩ B).2 = B := by
  have key : ∀ j, ((List.range j).foldl (luStep tiny n n) ⟨A, ipiv, info⟩).info ≠ 0 := by
    intro j
    induction j with
    | zero => exact h
    | succ j ih =>
      simp only [List.range_succ, List.foldl_append, List.foldl_cons, List.foldl_nil]
      generalize (List.range j).foldl (luStep tiny n n) ⟨A, ipiv, info⟩ = s at ih
      unfold luStep
      simp only
      split
      · exact ih
      · exact ih
  unfold dgesv
  simp only [dgetf2_square]
  rw [if_neg (key n)]

/-- a 2×2 system that needs a row exchange: solved -/
example : let r := dgesv (K := ℚ) (222/10^18) 2 1 ⟨fun i j => if i = j then (if i = 0 then 0 else 3) else 2,
      fun _ => 7, 0⟩ (fun i _ => if i = 0 then 4 else 7)
    r.1.info = 0 ∧ r.1.ipiv 0 = 1 ∧ r.2 0 0 = 1/2 ∧ r.2 1 0 = 2 := by
  decide +kernel
/-- a singular 2×2 system: reported -/
example : (dgesv (K := ℚ) (222/10^18) 2 1 ⟨fun i _ => if i = 0 then 1 else 2, fun _ => 0, 0⟩
      (fun _ _ => 1)).1.info = 2 := by
  decide +kernel

/-! ## Neville -/

omit [LinearOrder K] [IsStrictOrderedRing K] in
theorem nevilleInner_fold (xx : K) (x : Nat → K) (d m : Nat) (Q : Nat → K) (k : Nat) :
    (List.range m).foldl (nevilleInner xx x d) Q k
      = if k < m then ((xx - x k) * Q (k + 1) - (xx - x (k + d)) * Q k) / (x (k + d) - x k) else Q k := by
  induction m generalizing k with
  | zero => simp
  | succ m ih =>
    simp only [List.range_succ, List.foldl_append, List.foldl_cons, List.foldl_nil]
    unfold nevilleInner at ih ⊢
    by_cases h : k = m
    · subst h
      rw [Function.update_self, if_pos (by omega), ih (k + 1), ih k, if_neg (by omega), if_neg (by omega)]
    · rw [Function.update_of_ne h, ih]
      by_cases h' : k < m
      · rw [if_pos h', if_pos (by omega)]
      · rw [if_neg h', if_neg (by omega)]

open Polynomial in
/-- **C36** For pairwise distinct abscissae the value returned by the interpolation routine is the value
at `xx` of a polynomial of degree at most `n` through the `n + 1` given points, and this polynomial is
unique. -/
theorem C36_neville (n : Nat) (xx : K) (x y : Nat → K)
    (hx : ∀ i ≤ n, ∀ j ≤ n, i ≠ j → x i ≠ x j) :
    ∃ p : K[X], (p.natDegree ≤ n ∧ ∀ i ≤ n, p.eval (x i) = y i) ∧ neville xx n x y = p.eval xx ∧
      ∀ q : K[X], q.natDegree ≤ n → (∀ i ≤ n, q.eval (x i) = y i) → q = p := by
  have key : ∀ t ≤ n, ∀ j, j + t ≤ n → ∃ p : K[X], p.natDegree ≤ t ∧
      (∀ i, j ≤ i → i ≤ j + t → p.eval (x i) = y i) ∧
      ((List.range t).foldl (fun Q t => (List.range (n - t)).foldl (nevilleInner xx x (t + 1)) Q) y) j
        = p.eval xx := by
    intro t
    induction t with
    | zero =>
      intro _ j _
      refine ⟨C (y j), by rw [natDegree_C], fun i h1 h2 => ?_, ?_⟩
      · have : i = j := by omega
        rw [this, eval_C]
      · rw [eval_C]; rfl
    | succ t ih =>
      intro ht j hj
      simp only [List.range_succ, List.foldl_append, List.foldl_cons, List.foldl_nil]
      obtain ⟨p1, d1, i1, e1⟩ := ih (by omega) j (by omega)
      obtain ⟨p2, d2, i2, e2⟩ := ih (by omega) (j + 1) (by omega)
      generalize (List.range t).foldl
        (fun Q t => (List.range (n - t)).foldl (nevilleInner xx x (t + 1)) Q) y = Q at e1 e2
      have hne : x (j + (t + 1)) - x j ≠ 0 := sub_ne_zero.2 (hx _ (by omega) _ (by omega) (by omega))
      refine ⟨C (1 / (x (j + (t + 1)) - x j)) * ((X - C (x j)) * p2 - (X - C (x (j + (t + 1)))) * p1),
        ?_, ?_, ?_⟩
      · refine (natDegree_C_mul_le _ _).trans ((natDegree_sub_le _ _).trans (max_le ?_ ?_))
        · refine natDegree_mul_le.trans ?_
          rw [natDegree_X_sub_C]; omega
        · refine natDegree_mul_le.trans ?_
          rw [natDegree_X_sub_C]; omega
      · intro i h1 h2
        simp only [eval_mul, eval_sub, eval_C, eval_X]
        rcases Nat.lt_or_ge j i with h | h
        · rcases Nat.lt_or_ge i (j + (t + 1)) with h' | h'
          · rw [i1 i h1 (by omega), i2 i (by omega) (by omega)]
            field_simp
            ring
          · have : i = j + (t + 1) := by omega
            rw [i2 i (by omega) (by omega), this]
            field_simp
            ring
        · have : i = j := by omega
          rw [i1 i h1 (by omega), this]
          field_simp
          ring
      · rw [nevilleInner_fold, if_pos (by omega), e1, e2]
        simp only [eval_mul, eval_sub, eval_C, eval_X]
        ring
  obtain ⟨p, hd, hp, he⟩ := key n le_rfl 0 (by omega)
  refine ⟨p, ⟨hd, fun i hi => hp i (by omega) (by omega)⟩, he, fun q hqd hq => ?_⟩
  have hcard : #((range (n + 1)).image x) = n + 1 := by
    rw [card_image_of_injOn, card_range]
    intro a ha b hb hab
    by_contra hne
    have ha' : a < n + 1 := by simpa using ha
    have hb' : b < n + 1 := by simpa using hb
    exact hx a (by omega) b (by omega) hne hab
  have h0 : q - p = 0 := by
    refine Polynomial.eq_zero_of_natDegree_lt_card_of_eval_eq_zero' (q - p) ((range (n + 1)).image x) ?_ ?_
    · intro a ha
      obtain ⟨i, hi, rfl⟩ := mem_image.1 ha
      have hi' : i < n + 1 := by simpa using hi
      rw [eval_sub, hq i (by omega), hp i (by omega) (by omega), sub_self]
    · rw [hcard]
      exact lt_of_le_of_lt ((natDegree_sub_le _ _).trans (max_le hqd hd)) (Nat.lt_succ_self n)
  exact sub_eq_zero.1 h0

/-- a cubic through four points, evaluated between them -/
example : neville (K := ℚ) (1/2) 3 (fun i => i) (fun i => (i : ℚ) ^ 3) = 1/8 := by
  decide +kernel
end Acados.Math
