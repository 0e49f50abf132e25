import Verif.Spec.Zoro
import Mathlib.Tactic.LinearCombination
import Mathlib.Tactic.Linarith
import Mathlib.Tactic.NoncommRing
import Mathlib.Algebra.BigOperators.Intervals
/-! Lemmas for the zero-order robust optimisation update. -/
namespace Acados.Zoro
open Matrix
set_option linter.unusedSectionVars false
variable {K : Type*} [Field K] [LinearOrder K] {d : Dims}

theorem quad_congr {m n : Nat} (F : Mat K m n) (P : Mat K n n) (c : Fin m → K) :
    quad (F * P * Fᵀ) c = quad P (Fᵀ *ᵥ c) := by
  unfold quad
  rw [← mulVec_mulVec, ← mulVec_mulVec, dotProduct_mulVec, ← mulVec_transpose]

theorem quad_add {n : Nat} (P Q : Mat K n n) (c : Fin n → K) : quad (P + Q) c = quad P c + quad Q c := by
  unfold quad; rw [add_mulVec, dotProduct_add]

theorem quad_zero {n : Nat} (c : Fin n → K) : quad (0 : Mat K n n) c = 0 := by
  unfold quad; rw [zero_mulVec, dotProduct_zero]

theorem quad_zero_vec {n : Nat} (P : Mat K n n) : quad P 0 = 0 := by
  unfold quad; rw [zero_dotProduct]

theorem quad_neg {n : Nat} (P : Mat K n n) (c : Fin n → K) : quad P (-c) = quad P c := by
  unfold quad; rw [mulVec_neg, neg_dotProduct, dotProduct_neg, neg_neg]

theorem diag_quad {m n : Nat} (F : Mat K m n) (P : Mat K n n) (i : Fin m) : (F * P * Fᵀ) i i = quad P (F i) := by
  unfold quad
  rw [Matrix.mul_assoc, Matrix.mul_apply]
  rw [dotProduct]
  refine Finset.sum_congr rfl fun j _ => ?_
  congr 1

theorem entry_quad {n : Nat} (P : Mat K n n) (i : Fin n) : P i i = quad P (Pi.single i 1) := by
  unfold quad; rw [single_one_dotProduct, mulVec_single_one]; rfl

/-! ### disturbances -/
section Joint
variable [IsStrictOrderedRing K]

theorem dot_step {m n : Nat} (F : Mat K m n) (c : Fin m → K) (v : Fin n → K) :
    c ⬝ᵥ (F *ᵥ v) = (Fᵀ *ᵥ c) ⬝ᵥ v := by
  rw [dotProduct_mulVec, mulVec_transpose]

theorem joint (l : Lin K d) (gain : Nat → Mat K d.nu d.nx) (G : Mat K d.nx d.nw) (W : Nat → Mat K d.nw d.nw)
    (Sq Sp : Mat K d.np d.np) (P0 : Mat K d.nx d.nx) (g2 : K) (z : Dist K d) (hl : Loop l gain G z)
    (ha : ∀ (c0 : Fin d.nx → K) (cw : Nat → Fin d.nw → K) (cq : Nat → Fin d.np → K) (cp : Fin d.np → K),
      (c0 ⬝ᵥ z.e 0 + (∑ k ∈ Finset.range d.N, (cw k ⬝ᵥ z.w k + cq k ⬝ᵥ z.q k)) + cp ⬝ᵥ z.p) ^ 2
      ≤ g2 * (quad P0 c0 + (∑ k ∈ Finset.range d.N, (quad (W k) (cw k) + quad Sq (cq k))) + quad Sp cp)) :
    ∀ m ≤ d.N, ∀ (c : Fin d.nx → K) (cw : Nat → Fin d.nw → K) (cq : Nat → Fin d.np → K) (cp : Fin d.np → K),
      (c ⬝ᵥ z.e m + (∑ k ∈ Finset.Ico m d.N, (cw k ⬝ᵥ z.w k + cq k ⬝ᵥ z.q k)) + cp ⬝ᵥ z.p) ^ 2
      ≤ g2 * (quad (covS l gain G W Sq P0 m) c
          + (∑ k ∈ Finset.Ico m d.N, (quad (W k) (cw k) + quad Sq (cq k)))
          + quad Sp (cp + (parS l gain m)ᵀ *ᵥ c)) := by
  intro m
  induction m with
  | zero =>
    intro _ c cw cq cp
    have := ha c cw cq cp
    rw [← Finset.range_eq_Ico]
    simpa [parS, covS] using this
  | succ m ih =>
    intro hm c cw cq cp
    have h := ih (by omega) ((clA l gain m)ᵀ *ᵥ c) (Function.update cw m (Gᵀ *ᵥ c))
      (Function.update cq m ((l.Sp m)ᵀ *ᵥ c)) (cp + (l.Sp m)ᵀ *ᵥ c)
    rw [Finset.sum_eq_sum_Ico_succ_bot (a := m) (b := d.N) (by omega),
      Finset.sum_eq_sum_Ico_succ_bot (a := m) (b := d.N) (by omega)] at h
    have e1 : ∀ f : Nat → (Fin d.nw → K) → (Fin d.np → K) → K,
        ∑ k ∈ Finset.Ico (m + 1) d.N, f k (Function.update cw m (Gᵀ *ᵥ c) k)
          (Function.update cq m ((l.Sp m)ᵀ *ᵥ c) k) = ∑ k ∈ Finset.Ico (m + 1) d.N, f k (cw k) (cq k) := by
      intro f
      refine Finset.sum_congr rfl fun k hk => ?_
      have : k ≠ m := by have := (Finset.mem_Ico.mp hk).1; omega
      rw [Function.update_of_ne this, Function.update_of_ne this]
    rw [e1 fun k a b => a ⬝ᵥ z.w k + b ⬝ᵥ z.q k, e1 fun k a b => quad (W k) a + quad Sq b,
      Function.update_self, Function.update_self] at h
    have hl := hl m (by omega)
    rw [hl]
    simp only [dotProduct_add, mulVec_add, dot_step, covS, quad_add, quad_congr, add_dotProduct] at h ⊢
    have ev : cp + (l.Sp m)ᵀ *ᵥ c + (parS l gain m)ᵀ *ᵥ (clA l gain m)ᵀ *ᵥ c
        = cp + (parS l gain (m + 1))ᵀ *ᵥ c := by
      simp only [parS, transpose_add, transpose_mul, add_mulVec, ← mulVec_mulVec]
      abel
    rw [ev] at h
    have a1 : ∀ a b : K, a ≤ b → ∀ a' b', a' = a → b' = b → a' ≤ b' := fun _ _ h _ _ h1 h2 => by rw [h1, h2]; exact h
    exact a1 _ _ h _ _ (by ring) (by ring)

theorem error_bound (mode : Mode) (gamma : K) (l : Lin K d) (gain : Nat → Mat K d.nu d.nx) (G : Mat K d.nx d.nw)
    (W : Nat → Mat K d.nw d.nw) (Sigma : Mat K d.np d.np) (P0 : Mat K d.nx d.nx) (z : Dist K d)
    (hl : Loop l gain G z) (ha : Admissible mode gamma P0 W Sigma z) (k : Nat) (hk : k ≤ d.N) (c : Fin d.nx → K) :
    (c ⬝ᵥ z.e k) ^ 2 ≤ gamma ^ 2 * quad (cov mode l gain G W Sigma P0 k) c := by
  obtain ⟨hq, hp, ha⟩ := ha
  cases mode with
  | none =>
    have := joint l gain G W 0 0 P0 (gamma ^ 2) z hl (fun c0 cw cq cp => by
      have := ha c0 cw 0 0
      simpa [hq (by decide), hp (by decide), quad_zero, quad_zero_vec] using this) k hk c 0 0 0
    simpa [cov, quad_zero, quad_zero_vec] using this
  | noise =>
    have := joint l gain G W Sigma 0 P0 (gamma ^ 2) z hl (fun c0 cw cq cp => by
      have := ha c0 cw cq 0
      simpa [hp (by decide), quad_zero, quad_zero_vec] using this) k hk c 0 0 0
    simpa [cov, quad_zero, quad_zero_vec] using this
  | constant =>
    have := joint l gain G W 0 Sigma P0 (gamma ^ 2) z hl (fun c0 cw cq cp => by
      have := ha c0 cw 0 cp
      simpa [hq (by decide), quad_zero, quad_zero_vec] using this) k hk c 0 0 0
    simpa [cov, quad_zero, quad_zero_vec, quad_add, quad_congr] using this

end Joint

/-! ### covariances are symmetric and positive semidefinite -/

theorem sym_congr {m n : Nat} (F : Mat K m n) {P : Mat K n n} (h : Sym P) : Sym (F * P * Fᵀ) := by
  unfold Sym at *
  rw [transpose_mul, transpose_mul, transpose_transpose, h, Matrix.mul_assoc]

theorem sym_add {n : Nat} {P Q : Mat K n n} (h : Sym P) (h' : Sym Q) : Sym (P + Q) := by
  unfold Sym at *; rw [transpose_add, h, h']

theorem sym_zero {n : Nat} : Sym (0 : Mat K n n) := transpose_zero

theorem covS_sym (l : Lin K d) (gain G) (W : Nat → Mat K d.nw d.nw) (Sigma : Mat K d.np d.np)
    (P0 : Mat K d.nx d.nx) (N : Nat) (h0 : Sym P0) (hW : ∀ k < N, Sym (W k)) (hS : Sym Sigma) :
    ∀ k ≤ N, Sym (covS l gain G W Sigma P0 k) := by
  intro k
  induction k with
  | zero => exact fun _ => h0
  | succ k ih =>
    intro hk
    exact sym_add (sym_add (sym_congr _ (ih (by omega))) (sym_congr _ (hW k (by omega)))) (sym_congr _ hS)

theorem cov_sym (mode : Mode) (l : Lin K d) (gain G) (W : Nat → Mat K d.nw d.nw) (Sigma : Mat K d.np d.np)
    (P0 : Mat K d.nx d.nx) (N : Nat) (h0 : Sym P0) (hW : ∀ k < N, Sym (W k)) (hS : mode ≠ .none → Sym Sigma)
    (k : Nat) (hk : k ≤ N) : Sym (cov mode l gain G W Sigma P0 k) := by
  cases mode with
  | none => exact covS_sym l gain G W 0 P0 N h0 hW sym_zero k hk
  | noise => exact covS_sym l gain G W Sigma P0 N h0 hW (hS (by decide)) k hk
  | constant =>
    exact sym_add (covS_sym l gain G W 0 P0 N h0 hW sym_zero k hk) (sym_congr _ (hS (by decide)))

theorem covS_psd [IsStrictOrderedRing K] (l : Lin K d) (gain G) (W : Nat → Mat K d.nw d.nw)
    (Sigma : Mat K d.np d.np) (P0 : Mat K d.nx d.nx) (N : Nat) (h0 : Psd P0) (hW : ∀ k < N, Psd (W k))
    (hS : Psd Sigma) : ∀ k ≤ N, Psd (covS l gain G W Sigma P0 k) := by
  intro k
  induction k with
  | zero => exact fun _ => h0
  | succ k ih =>
    intro hk c
    simp only [covS, quad_add, quad_congr]
    exact add_nonneg (add_nonneg (ih (by omega) _) (hW k (by omega) _)) (hS _)

theorem cov_psd [IsStrictOrderedRing K] (mode : Mode) (l : Lin K d) (gain G) (W : Nat → Mat K d.nw d.nw)
    (Sigma : Mat K d.np d.np) (P0 : Mat K d.nx d.nx) (N : Nat) (h0 : Psd P0) (hW : ∀ k < N, Psd (W k))
    (hS : mode ≠ .none → Psd Sigma) (k : Nat) (hk : k ≤ N) : Psd (cov mode l gain G W Sigma P0 k) := by
  have z : Psd (0 : Mat K d.np d.np) := fun c => by rw [quad_zero]
  cases mode with
  | none => exact covS_psd l gain G W 0 P0 N h0 hW z k hk
  | noise => exact covS_psd l gain G W Sigma P0 N h0 hW (hS (by decide)) k hk
  | constant =>
    intro c
    simp only [cov, quad_add, quad_congr]
    exact add_nonneg (covS_psd l gain G W 0 P0 N h0 hW z k hk c) (hS (by decide) _)

/-! ### the payload -/

theorem diag_fold {n : Nat} (v : Fin n → K) : ∀ (L : List (Fin n)), L.Nodup → ∀ M : Mat K n n,
    L.foldl (fun (M : Mat K n n) (i : Fin n) => if v i < 0 then M else put (v i) M i i) M
    = fun i j => if i = j ∧ i ∈ L then newDiag v M i j else M i j := by
  intro L
  induction L with
  | nil => intro _ M; simp
  | cons a L ih =>
    intro hL M
    obtain ⟨ha, hL⟩ := List.nodup_cons.mp hL
    rw [List.foldl_cons, ih hL]
    funext i j
    by_cases hn : v a < 0
    · simp only [if_pos hn]
      by_cases hij : i = j
      · subst hij
        by_cases hia : i = a
        · subst hia; simp [newDiag, ha, hn]
        · simp [newDiag, hia]
      · simp [hij]
    · simp only [if_neg hn]
      by_cases hij : i = j
      · subst hij
        by_cases hia : i = a
        · subst hia; simp [newDiag, put, ha, hn]
        · simp [newDiag, put, hia]
      · simp only [hij, false_and, if_false, put]
        rw [if_neg]
        rintro ⟨h1, h2⟩; exact hij (h1.trans h2.symm)

theorem setDiag_eq {n : Nat} (off : Nat) (data : List K) (M : Mat K n n) :
    setDiag off data M = newDiag (fun i => data.getD (off + i) 0) M := by
  unfold setDiag
  rw [diag_fold (fun i : Fin n => data.getD (off + i) 0) _ (List.nodup_finRange n)]
  funext i j
  by_cases hij : i = j
  · simp [hij]
  · simp [hij, newDiag]

theorem newDiag_off {n : Nat} (v : Fin n → K) (M : Mat K n n) {i j : Fin n} (h : i ≠ j) :
    newDiag v M i j = M i j := if_neg h

end Acados.Zoro
