import Verif.Spec.ZoroRiccati
import Verif.Lemmas.ZoroReach
import Mathlib.Tactic.LinearCombination
/-! The linear-quadratic recursion. -/
namespace Acados.Zoro
open Matrix
set_option linter.unusedSectionVars false
variable {K : Type*} [Field K] [LinearOrder K] {d : Dims}

theorem sym_bilin {n : Nat} {P : Mat K n n} (h : Sym P) (a b : Fin n → K) : a ⬝ᵥ (P *ᵥ b) = b ⬝ᵥ (P *ᵥ a) := by
  have h' : Pᵀ = P := h
  rw [dotProduct_mulVec, ← mulVec_transpose, h', dotProduct_comm]

theorem quad_sum {n : Nat} {P : Mat K n n} (h : Sym P) (a b : Fin n → K) :
    quad P (a + b) = quad P a + 2 * (a ⬝ᵥ (P *ᵥ b)) + quad P b := by
  unfold quad
  rw [mulVec_add, dotProduct_add, add_dotProduct, add_dotProduct, sym_bilin h b a]; ring

/-- bilinear form of a product -/
theorem bil {a b n : Nat} (F : Mat K n a) (P : Mat K n n) (G : Mat K n b) (u : Fin a → K) (x : Fin b → K) :
    u ⬝ᵥ ((Fᵀ * P * G) *ᵥ x) = (F *ᵥ u) ⬝ᵥ (P *ᵥ (G *ᵥ x)) := by
  rw [← mulVec_mulVec, ← mulVec_mulVec, dotProduct_mulVec, vecMul_transpose]

/-- completion of squares -/
theorem square (Q P : Mat K d.nx d.nx) (R : Mat K d.nu d.nu) (S Kk : Mat K d.nu d.nx) (A : Mat K d.nx d.nx)
    (B : Mat K d.nx d.nu) (hP : Sym P) (hR : Sym R)
    (hK : (Bᵀ * P * B + R) * Kk = Bᵀ * P * A + S) (x : Fin d.nx → K) (u : Fin d.nu → K) :
    lqCost Q R S x u + quad P (A *ᵥ x + B *ᵥ u)
      = (quad Q x + quad P (A *ᵥ x) - quad (Bᵀ * P * B + R) (Kk *ᵥ x)) + quad (Bᵀ * P * B + R) (u + Kk *ᵥ x) := by
  have hM : Sym (Bᵀ * P * B + R) := by
    have := sym_congr Bᵀ hP
    rw [transpose_transpose] at this
    exact sym_add this hR
  rw [quad_sum hP, quad_sum hM, mulVec_mulVec x (Bᵀ * P * B + R) Kk, hK, add_mulVec, dotProduct_add, bil]
  have e1 : quad (Bᵀ * P * B + R) u = quad P (B *ᵥ u) + quad R u := by
    rw [quad_add]; unfold quad; rw [bil]
  rw [e1, sym_bilin hP (A *ᵥ x) (B *ᵥ u)]
  unfold lqCost
  ring

section
variable [IsStrictOrderedRing K]

structure StageOk (Q : Mat K d.nx d.nx) (R : Mat K d.nu d.nu) (S : Mat K d.nu d.nx) : Prop where
  symQ : Sym Q
  symR : Sym R
  psd : ∀ x u, 0 ≤ lqCost Q R S x u
  pd : Pd R

theorem step_ok (ch : Chol K d) (hc : CholOk ch) (Q P : Mat K d.nx d.nx) (R : Mat K d.nu d.nu) (S : Mat K d.nu d.nx)
    (A : Mat K d.nx d.nx) (B : Mat K d.nx d.nu) (h : StageOk Q R S) (hP : Sym P) (hp : Psd P) :
    ∃ M : Mat K d.nu d.nu, Pd M ∧
      (∀ x u, lqCost Q R S x u + quad P (A *ᵥ x + B *ᵥ u) =
        quad ((Aᵀ * P) * A + (-((ch.solveN (ch.potrf (Bᵀ * P * B + R)) (Bᵀ * P * A + S))ᵀ
          * ch.solveN (ch.potrf (Bᵀ * P * B + R)) (Bᵀ * P * A + S)) + Q)) x
        + quad M (u + ch.solveT (ch.potrf (Bᵀ * P * B + R)) (ch.solveN (ch.potrf (Bᵀ * P * B + R)) (Bᵀ * P * A + S)) *ᵥ x)) ∧
      Sym ((Aᵀ * P) * A + (-((ch.solveN (ch.potrf (Bᵀ * P * B + R)) (Bᵀ * P * A + S))ᵀ
          * ch.solveN (ch.potrf (Bᵀ * P * B + R)) (Bᵀ * P * A + S)) + Q)) ∧
      Psd ((Aᵀ * P) * A + (-((ch.solveN (ch.potrf (Bᵀ * P * B + R)) (Bᵀ * P * A + S))ᵀ
          * ch.solveN (ch.potrf (Bᵀ * P * B + R)) (Bᵀ * P * A + S)) + Q)) := by
  have hM : Sym (Bᵀ * P * B + R) := by
    have := sym_congr Bᵀ hP
    rw [transpose_transpose] at this
    exact sym_add this h.symR
  have e1 : ∀ u, quad (Bᵀ * P * B + R) u = quad P (B *ᵥ u) + quad R u := fun u => by
    rw [quad_add]; unfold quad; rw [bil]
  have hpd : Pd (Bᵀ * P * B + R) := fun u hu => by
    rw [e1]; have := hp (B *ᵥ u); have := h.pd u hu; linarith
  obtain ⟨hL, hs⟩ := hc _ hM hpd
  obtain ⟨hX, -⟩ := hs (Bᵀ * P * A + S)
  obtain ⟨-, hK⟩ := hs (ch.solveN (ch.potrf (Bᵀ * P * B + R)) (Bᵀ * P * A + S))
  generalize hMM : Bᵀ * P * B + R = M at *
  generalize hY : Bᵀ * P * A + S = Y at *
  generalize ch.solveN (ch.potrf M) Y = X at *
  generalize ch.solveT (ch.potrf M) X = Kk at *
  generalize ch.potrf M = L at *
  have hMK : M * Kk = Y := by rw [← hL, Matrix.mul_assoc, hK, hX]
  have hXX : ∀ x, quad (Xᵀ * X) x = quad M (Kk *ᵥ x) := by
    intro x
    have e : Xᵀ * X = Kkᵀ * M * Kk := by
      rw [← hK, transpose_mul, transpose_transpose, ← hL]; simp only [Matrix.mul_assoc]
    rw [e]; unfold quad; rw [bil]
  have hPx : ∀ x, quad ((Aᵀ * P) * A + (-(Xᵀ * X) + Q)) x
      = quad Q x + quad P (A *ᵥ x) - quad M (Kk *ᵥ x) := by
    intro x
    rw [quad_add, quad_add]
    have e2 : quad (Aᵀ * P * A) x = quad P (A *ᵥ x) := by unfold quad; rw [bil]
    have e3 : quad (-(Xᵀ * X)) x = - quad M (Kk *ᵥ x) := by
      rw [← hXX]; unfold quad; rw [neg_mulVec, dotProduct_neg]
    rw [e2, e3]; ring
  have hsq : ∀ x u, lqCost Q R S x u + quad P (A *ᵥ x + B *ᵥ u)
      = quad ((Aᵀ * P) * A + (-(Xᵀ * X) + Q)) x + quad M (u + Kk *ᵥ x) := by
    intro x u
    rw [hPx, ← hMM]
    exact square Q P R S Kk A B hP h.symR (by rw [hMM, hMK, hY]) x u
  refine ⟨M, hpd, hsq, ?_, fun x => ?_⟩
  · refine sym_add ?_ (sym_add ?_ h.symQ)
    · have := sym_congr Aᵀ hP
      rwa [transpose_transpose] at this
    · unfold Sym; rw [transpose_neg, transpose_mul, transpose_transpose]
  · have h1 := hsq x (-(Kk *ᵥ x))
    rw [neg_add_cancel, quad_zero_vec, add_zero] at h1
    rw [← h1]
    exact add_nonneg (h.psd _ _) (hp _)

end
end Acados.Zoro
