import Verif.Lemmas.Casadi
import Mathlib.Algebra.Ring.Int.Defs
/-!
# C40: conversion of CasADi buffers

Buffers have exactly the size the code allocates for them, `casadi_nnz` numbers.
-/
set_option linter.unusedSectionVars false
namespace Acados.Casadi
variable {K : Type*} [Zero K]

/-- content of a buffer -/
def val (inp : List K) (k : Nat) : K := inp.getD k 0

theorem val_of {inp : List K} {k : Nat} {x : K} (h : inp[k]? = some x) : x = val inp k := by
  simp [val, List.getD_eq_getElem?_getD, h]

section
variable {ι : Type*} [DecidableEq ι]

theorem sparse_denotes {sp : Nat → Nat} (hv : ValidSparsity sp) (h0 : sp 2 = 0) (inp : List K)
    (hl : inp.length = count sp) (addr : Nat → Nat → ι)
    (hinj : ∀ i < nrow sp, ∀ i' < nrow sp, ∀ j < ncol sp, ∀ j' < ncol sp, addr i j = addr i' j' → i = i' ∧ j = j')
    (o : ι → K) :
    ∃ o', scatter sp inp addr (zeroBlock (nrow sp) (ncol sp) addr o) = some o'
      ∧ Denotes sp (val inp) (fun i j => o' (addr i j)) ∧ ∀ a, Outside (nrow sp) (ncol sp) addr a → o' a = o a := by
  rw [count, if_pos h0] at hl
  obtain ⟨o', h1, h2, h3⟩ := scatter_spec hv h0 inp addr hinj hl.ge (zeroBlock (nrow sp) (ncol sp) addr o)
  obtain ⟨z1, z2⟩ := zeroBlock_spec (nrow sp) (ncol sp) addr o
  refine ⟨o', h1, ⟨fun h => absurd h0 h, ?_, ?_⟩, ?_⟩
  · intro _ j hj k hk1 hk2
    exact val_of (h2 j k ⟨hj, hk1, hk2⟩)
  · intro _ i hi j hj hk
    change o' (addr i j) = 0
    rw [h3, z1 i hi j hj]
    intro j' k hc he
    obtain ⟨e1, e2⟩ := hinj _ (row_lt hv h0 hc) i hi j' hc.1 j hj he
    subst e2
    exact hk k hc.2.1 hc.2.2 e1
  · intro a ha
    rw [h3, z2 a ha]
    intro j k hc
    exact ha _ (row_lt hv h0 hc) j hc.1

theorem dense_denotes {sp : Nat → Nat} (hd : sp 2 ≠ 0 ∨ Full sp) (v : Nat → K) (M : Nat → Nat → K)
    (h : ∀ i < nrow sp, ∀ j < ncol sp, M i j = v (i + j * nrow sp)) : Denotes sp v M := by
  refine ⟨fun _ => h, fun h0 j hj k hk1 hk2 => ?_, fun h0 i hi j hj hk => ?_⟩
  · have hf := hd.resolve_left (by simp [h0])
    have c1 := hf.col j (le_of_lt hj)
    have c2 := hf.col (j + 1) hj
    change idxcol sp j ≤ k at hk1
    change k < idxcol sp (j + 1) at hk2
    rw [Nat.succ_mul] at c2
    have hr := hf.row j hj (k - j * nrow sp) (by omega)
    rw [show k - j * nrow sp + j * nrow sp = k by omega] at hr
    change M (row sp k) j = v k
    rw [hr, h _ (by omega) j hj]
    congr 1; omega
  · have hf := hd.resolve_left (by simp [h0])
    have c1 := hf.col j (le_of_lt hj)
    have c2 := hf.col (j + 1) hj
    rw [Nat.succ_mul] at c2
    exfalso
    change i < nrow sp at hi
    exact hk (i + j * nrow sp) (by change idxcol sp j ≤ _; omega) (by change _ < idxcol sp (j + 1); omega)
      (hf.row j hj i hi)

theorem empty_denotes {sp : Nat → Nat} (hv : ValidSparsity sp) (h : nrow sp = 0 ∨ ncol sp = 0) (v : Nat → K)
    (M : Nat → Nat → K) : Denotes sp v M := by
  unfold nrow ncol at h
  refine ⟨fun _ i hi j hj => by omega, fun h0 j hj k hk1 hk2 => ?_, fun _ i hi j hj => by omega⟩
  have := hv.rowLt h0 j hj k hk1 hk2
  omega

theorem dense_or_full {sp : Nat → Nat} (hv : ValidSparsity sp) (hne : ¬ (nrow sp = 0 ∨ ncol sp = 0))
    (hd : isDense sp = true) : sp 2 ≠ 0 ∨ Full sp := by
  by_cases h0 : sp 2 = 0
  · exact .inr (isDense_full hv h0 (by omega) (by omega) hd)
  · exact .inl h0

theorem count_dense {sp : Nat → Nat} (h : sp 2 ≠ 0 ∨ Full sp) : count sp = ncol sp * nrow sp := by
  unfold count
  split
  · next h0 => exact (h.resolve_left (by simp [h0])).col _ (le_refl _)
  · exact Nat.mul_comm _ _

theorem not_dense {sp : Nat → Nat} (hd : isDense sp = false) : sp 2 = 0 := by
  unfold isDense at hd
  split at hd
  · simp at hd
  split at hd
  · simp at hd
  · next h => simpa using h
end

theorem lt_block {a b i j : Nat} (hi : i < a) (hj : j < b) : i + j * a < b * a := by
  calc i + j * a < a + j * a := by omega
    _ = (j + 1) * a := by rw [Nat.succ_mul, Nat.add_comm]
    _ ≤ b * a := Nat.mul_le_mul_right _ hj

/-- Sanity of the specification: pattern and nonzeros determine the matrix. -/
theorem C40_denotes_unique {sp : Nat → Nat} (v : Nat → K) (M M' : Nat → Nat → K) (h : Denotes sp v M)
    (h' : Denotes sp v M') (i j : Nat) (hi : i < sp 0) (hj : j < sp 1) : M i j = M' i j := by
  by_cases h0 : sp 2 = 0
  · by_cases hk : ∃ k, sp (2 + j) ≤ k ∧ k < sp (2 + (j + 1)) ∧ sp (sp 1 + 3 + k) = i
    · obtain ⟨k, h1, h2, rfl⟩ := hk
      rw [h.nonzero h0 j hj k h1 h2, h'.nonzero h0 j hj k h1 h2]
    · have hk' : ∀ k, sp (2 + j) ≤ k → k < sp (2 + (j + 1)) → sp (sp 1 + 3 + k) ≠ i :=
        fun k h1 h2 h3 => hk ⟨k, h1, h2, h3⟩
      rw [h.zero h0 i hi j hj hk', h'.zero h0 i hi j hj hk']
  · rw [h.dense h0 i hi j hj, h'.dense h0 i hi j hj]

/-- C40: the buffer size computed for a pattern is its number of structural nonzeros. -/
theorem C40_nnz {sp : Nat → Nat} (hv : ValidSparsity sp) : nnz sp = count sp := nnz_eq hv

/-- C40, column-major output: the buffer is read within its size, the output is the denoted matrix, nothing else is
written. -/
theorem C40_to_colmaj {sp : Nat → Nat} (hv : ValidSparsity sp) (inp : List K) (hl : inp.length = nnz sp) (out : Nat → K) :
    ∃ o', toColmaj sp (isDense sp) inp out = some o' ∧ Denotes sp (val inp) (fun i j => o' (i + j * sp 0))
      ∧ ∀ a, sp 0 * sp 1 ≤ a → o' a = out a := by
  rw [nnz_eq hv] at hl
  unfold toColmaj
  by_cases hz : nrow sp = 0 ∨ ncol sp = 0
  · exact ⟨out, by rw [if_pos hz], empty_denotes hv hz _ _, fun _ _ => rfl⟩
  rw [if_neg hz]
  cases hd : isDense sp with
  | true =>
    have hf := dense_or_full hv hz hd
    rw [count_dense hf] at hl
    obtain ⟨o', h1, h2, h3⟩ := packBlock_spec (ncol sp * nrow sp) 1 0 inp (fun i _ => i)
      (fun i _ i' _ j _ j' _ h => ⟨h, by omega⟩) (fun i hi j _ => by omega) out
    refine ⟨o', h1, dense_denotes hf _ _ fun i hi j hj => ?_, fun a ha => h3 a fun i hi j _ => ?_⟩
    · have := h2 (i + j * nrow sp) (lt_block hi hj) 0 (by omega)
      simp only [Nat.zero_mul, Nat.mul_zero, Nat.add_zero] at this
      exact val_of this
    · rw [Nat.mul_comm] at hi
      change i < sp 0 * sp 1 at hi
      change i ≠ a
      omega
  | false =>
    obtain ⟨o', h1, h2, h3⟩ := sparse_denotes hv (not_dense hd) inp hl (cm (nrow sp)) (cm_inj _ _ _ (le_refl _)) out
    refine ⟨o', h1, h2, fun a ha => h3 a fun i hi j hj => ?_⟩
    have := lt_block hi hj
    rw [Nat.mul_comm (ncol sp)] at this
    change i + j * nrow sp < sp 0 * sp 1 at this
    change i + j * nrow sp ≠ a
    omega

/-- C40, matrix output (also at an offset in a larger matrix). -/
theorem C40_to_dmat {sp : Nat → Nat} (hv : ValidSparsity sp) (inp : List K) (hl : inp.length = nnz sp) (ai aj : Nat)
    (out : Nat × Nat → K) :
    ∃ o', toDmat sp (isDense sp) ai aj inp out = some o' ∧ Denotes sp (val inp) (fun i j => o' (ai + i, aj + j))
      ∧ ∀ r c, ¬ (ai ≤ r ∧ r < ai + sp 0 ∧ aj ≤ c ∧ c < aj + sp 1) → o' (r, c) = out (r, c) := by
  rw [nnz_eq hv] at hl
  unfold toDmat
  have hinj : ∀ i < nrow sp, ∀ i' < nrow sp, ∀ j < ncol sp, ∀ j' < ncol sp,
      ((ai + i, aj + j) : Nat × Nat) = (ai + i', aj + j') → i = i' ∧ j = j' := by
    intro i _ i' _ j _ j' _ h
    simp only [Prod.mk.injEq] at h
    omega
  have hfr : ∀ r c, ¬ (ai ≤ r ∧ r < ai + sp 0 ∧ aj ≤ c ∧ c < aj + sp 1) →
      Outside (nrow sp) (ncol sp) (fun i j => (ai + i, aj + j)) (r, c) := by
    intro r c h i hi j hj he
    simp only [Prod.mk.injEq] at he
    change i < sp 0 at hi
    change j < sp 1 at hj
    omega
  by_cases hz : nrow sp = 0 ∨ ncol sp = 0
  · exact ⟨out, by simp only [if_pos hz], empty_denotes hv hz _ _, fun _ _ _ => rfl⟩
  simp only [if_neg hz]
  cases hd : isDense sp with
  | true =>
    have hf := dense_or_full hv hz hd
    rw [count_dense hf] at hl
    obtain ⟨o', h1, h2, h3⟩ := packBlock_spec (nrow sp) (ncol sp) (nrow sp) inp (fun i j => (ai + i, aj + j)) hinj
      (fun i hi j hj => by rw [hl]; exact lt_block hi hj) out
    exact ⟨o', h1, dense_denotes hf _ _ fun i hi j hj => val_of (h2 i hi j hj), fun r c h => h3 _ (hfr r c h)⟩
  | false =>
    obtain ⟨o', h1, h2, h3⟩ := sparse_denotes hv (not_dense hd) inp hl (fun i j => (ai + i, aj + j)) hinj out
    exact ⟨o', h1, h2, fun r c h => h3 _ (hfr r c h)⟩

/-- C40, vector output: column vectors and patterns without rows are converted, anything else with rows and at least
two columns ends the process. -/
theorem C40_to_dvec_partial {sp : Nat → Nat} (hv : ValidSparsity sp) (inp : List K) (hl : inp.length = nnz sp) (xi : Nat)
    (out : Nat → K) :
    (sp 1 = 1 ∨ sp 0 = 0 → ∃ o', toDvec sp (isDense sp) xi inp out = .ok o'
      ∧ (sp 1 = 1 → Denotes sp (val inp) (fun i _ => o' (xi + i)))
      ∧ ∀ a, ¬ (xi ≤ a ∧ a < xi + sp 0) → o' a = out a)
    ∧ (sp 0 ≠ 0 → 2 ≤ sp 1 → toDvec sp (isDense sp) xi inp out = .exit) := by
  rw [nnz_eq hv] at hl
  unfold toDvec
  refine ⟨fun h => ?_, fun h1 h2 => ?_⟩
  swap
  · rw [if_pos (by unfold nrow ncol; omega)]
  simp only [if_neg (show ¬ ¬ (ncol sp = 1 ∨ nrow sp = 0 ∨ ncol sp = 0) by unfold ncol nrow; omega)]
  by_cases hz : nrow sp = 0
  · exact ⟨out, by rw [if_pos hz], fun _ => empty_denotes hv (.inl hz) _ _, fun _ _ => rfl⟩
  have h1 : ncol sp = 1 := h.resolve_right hz
  rw [if_neg hz]
  have hinj : ∀ i < nrow sp, ∀ i' < nrow sp, ∀ j < ncol sp, ∀ j' < ncol sp, xi + i = xi + i' → i = i' ∧ j = j' := by
    intro i _ i' _ j _ j' _ h; omega
  have hfr : ∀ a, ¬ (xi ≤ a ∧ a < xi + sp 0) → Outside (nrow sp) 1 (fun i _ => xi + i) a := by
    intro a h i hi j hj he
    change i < sp 0 at hi
    change xi + i = a at he
    omega
  cases hd : isDense sp with
  | true =>
    have hf := dense_or_full hv (by omega) hd
    rw [count_dense hf, h1, Nat.one_mul] at hl
    obtain ⟨o', g1, g2, g3⟩ := packBlock_spec (nrow sp) 1 0 inp (fun i _ => xi + i) (by rwa [h1] at hinj)
      (fun i hi j _ => by omega) out
    refine ⟨o', by simp only [g1]; rfl, fun _ => dense_denotes hf _ _ fun i hi j hj => ?_, fun a h => g3 _ (hfr a h)⟩
    have := g2 i hi 0 (by omega)
    obtain rfl : j = 0 := by omega
    exact val_of (by simpa using this)
  | false =>
    obtain ⟨o', g1, g2, g3⟩ := sparse_denotes hv (not_dense hd) inp hl (fun i _ => xi + i) hinj out
    rw [h1] at g1 g3
    exact ⟨o', by simp only [g1]; rfl, fun _ => g2, fun a h => g3 _ (hfr a h)⟩

/-- The remaining case of the vector output, rows but no columns, reads past the end of the (empty) buffer
(`external_function_generic.c` lines 435-450: only the number of rows is tested before packing). -/
theorem C40_dvec_no_columns_overrun {sp : Nat → Nat} (_hv : ValidSparsity sp) (hr : sp 0 ≠ 0) (hc : sp 1 = 0)
    (inp : List K) (hl : inp.length = nnz sp) (xi : Nat) (out : Nat → K) :
    toDvec sp (isDense sp) xi inp out = .overrun := by
  have hd : isDense sp = true := by
    unfold isDense; rw [if_pos (.inr hc)]
  have h0 : inp.length = 0 := by
    rw [hl, nnz]
    split
    · unfold nrow ncol; rw [hc, Nat.mul_zero]
    · unfold ncol; rw [hc]; rfl
  unfold toDvec
  simp only [if_neg (show ¬ ¬ (ncol sp = 1 ∨ nrow sp = 0 ∨ ncol sp = 0) by unfold ncol nrow; omega),
    if_neg (show ¬ nrow sp = 0 from hr), hd, if_true]
  rw [packBlock_overrun (nrow sp) 1 0 inp _ out 0 0 (Nat.pos_of_ne_zero hr) (by omega) (by omega)]
  rfl

/-- C40, column-major argument with a leading dimension: right for sparse patterns and for square matrices. -/
theorem C40_to_colmaj_args_partial {sp : Nat → Nat} (hv : ValidSparsity sp) (inp : List K) (hl : inp.length = nnz sp)
    (lda : Nat) (hlda : sp 0 ≤ lda) (hsq : isDense sp = false ∨ sp 0 = sp 1) (out : Nat → K) :
    ∃ o', toColmajArgs sp (isDense sp) lda inp out = some o' ∧ Denotes sp (val inp) (fun i j => o' (i + j * lda)) := by
  rw [nnz_eq hv] at hl
  unfold toColmajArgs
  by_cases hz : nrow sp = 0 ∨ ncol sp = 0
  · exact ⟨out, by rw [if_pos hz], empty_denotes hv hz _ _⟩
  rw [if_neg hz]
  cases hd : isDense sp with
  | true =>
    have hf := dense_or_full hv hz hd
    have hsq : nrow sp = ncol sp := hsq.resolve_left (by simp [hd])
    rw [count_dense hf] at hl
    obtain ⟨o', h1, h2, _⟩ := packBlock_spec (ncol sp) (nrow sp) (ncol sp) inp (cm lda)
      (cm_inj _ _ _ (by rw [← hsq]; exact hlda)) (fun i hi j hj => by rw [hl, Nat.mul_comm (ncol sp)]; exact lt_block hi hj) out
    refine ⟨o', h1, dense_denotes hf _ _ fun i hi j hj => ?_⟩
    rw [hsq]
    exact val_of (h2 i (hsq ▸ hi) j (hsq.symm ▸ hj))
  | false =>
    obtain ⟨o', h1, h2, h3⟩ := sparse_denotes hv (not_dense hd) inp hl (cm lda) (cm_inj _ _ _ hlda) out
    exact ⟨o', h1, h2⟩

/-- For a dense `2 × 1` matrix with leading dimension 2 the column-major argument is filled with the wrong entries: the
second number lands in a second column, outside the matrix, and the entry it belongs to keeps its old content. -/
theorem C40_colmaj_args_dense_wrong :
    ∃ (sp : Nat → Nat) (inp : List Int) (lda : Nat) (out o' : Nat → Int), ValidSparsity sp ∧ inp.length = nnz sp ∧ sp 0 ≤ lda
      ∧ toColmajArgs sp (isDense sp) lda inp out = some o' ∧ ¬ Denotes sp (val inp) (fun i j => o' (i + j * lda))
      ∧ o' 2 ≠ out 2 := by
  refine ⟨fun i => if i = 0 then 2 else 1, [5, 7], 2, fun _ => 0,
    Function.update (Function.update (fun _ => 0) 0 5) 2 7, ?_, by decide, by decide, ?_, ?_, by decide⟩
  · exact ⟨fun h => by simp at h, fun h => by simp at h, fun h => by simp at h⟩
  · rfl
  · intro h
    have := h.dense (by simp) 1 (by simp) 0 (by simp)
    revert this
    decide

section
variable {ι : Type*} [DecidableEq ι]

/-- C40, reading back a column-major array or matrix: every nonzero of the pattern is read from its place, the buffer
is not written past its size. -/
theorem C40_from_colmaj {sp : Nat → Nat} (hv : ValidSparsity sp) (mem out : Nat → K) :
    (sp 2 ≠ 0 → ∀ i < sp 0, ∀ j < sp 1, fromColmaj sp (isDense sp) mem out (i + j * sp 0) = mem (i + j * sp 0))
    ∧ (sp 2 = 0 → ∀ j < sp 1, ∀ k, sp (2 + j) ≤ k → k < sp (2 + (j + 1)) →
        fromColmaj sp (isDense sp) mem out k = mem (sp (sp 1 + 3 + k) + j * sp 0))
    ∧ ∀ k, nnz sp ≤ k → fromColmaj sp (isDense sp) mem out k = out k := by
  rw [nnz_eq hv]
  unfold fromColmaj
  by_cases hz : nrow sp = 0 ∨ ncol sp = 0
  · simp only [if_pos hz]
    unfold nrow ncol at hz
    refine ⟨fun _ i hi j hj => by omega, fun h0 j hj k hk1 hk2 => ?_, fun _ _ => trivial⟩
    have := hv.rowLt h0 j hj k hk1 hk2
    omega
  simp only [if_neg hz]
  cases hd : isDense sp with
  | true =>
    have hf := dense_or_full hv hz hd
    obtain ⟨h1, h2⟩ := unpackBlock_spec (ncol sp * nrow sp) 1 0 mem (fun i _ => i) (.inr (le_refl _)) out
    simp only [if_true]
    have h1' : ∀ k < ncol sp * nrow sp, unpackBlock (ncol sp * nrow sp) 1 0 mem (fun i _ => i) out k = mem k := by
      intro k hk
      have := h1 k hk 0 (by omega)
      simpa using this
    refine ⟨fun _ i hi j hj => h1' _ (lt_block hi hj), fun h0 j hj k hk1 hk2 => ?_, fun k hk => ?_⟩
    · have hf := hf.resolve_left (by simp [h0])
      have c1 := hf.col j (le_of_lt hj)
      have c2 := hf.col (j + 1) hj
      have c3 := hf.col (ncol sp) (le_refl _)
      have hm := idxcol_mono hv h0 (show j + 1 ≤ ncol sp from hj) (le_refl _)
      change idxcol sp j ≤ k at hk1
      change k < idxcol sp (j + 1) at hk2
      rw [Nat.succ_mul] at c2
      have hr := hf.row j hj (k - j * nrow sp) (by omega)
      rw [show k - j * nrow sp + j * nrow sp = k by omega] at hr
      rw [h1' k (by omega)]
      change mem k = mem (row sp k + j * nrow sp)
      rw [hr]
      congr 1; omega
    · rw [count_dense hf] at hk
      exact h2 k fun i hi j hj => by omega
  | false =>
    have h0 := not_dense hd
    obtain ⟨h1, h2⟩ := gather_spec hv h0 mem (cm (nrow sp)) out
    refine ⟨fun h => absurd h0 h, fun _ j hj k hk1 hk2 => h1 j k ⟨hj, hk1, hk2⟩, fun k hk => h2 k ?_⟩
    rw [count, if_pos h0] at hk
    exact hk

/-- same for matrices at an offset -/
theorem C40_from_dmat {sp : Nat → Nat} (hv : ValidSparsity sp) (ai aj : Nat) (mem : Nat × Nat → K) (out : Nat → K) :
    (sp 2 ≠ 0 → ∀ i < sp 0, ∀ j < sp 1, fromDmat sp (isDense sp) ai aj mem out (i + j * sp 0) = mem (ai + i, aj + j))
    ∧ (sp 2 = 0 → ∀ j < sp 1, ∀ k, sp (2 + j) ≤ k → k < sp (2 + (j + 1)) →
        fromDmat sp (isDense sp) ai aj mem out k = mem (ai + sp (sp 1 + 3 + k), aj + j))
    ∧ ∀ k, nnz sp ≤ k → fromDmat sp (isDense sp) ai aj mem out k = out k := by
  rw [nnz_eq hv]
  unfold fromDmat
  by_cases hz : nrow sp = 0 ∨ ncol sp = 0
  · simp only [if_pos hz]
    unfold nrow ncol at hz
    refine ⟨fun _ i hi j hj => by omega, fun h0 j hj k hk1 hk2 => ?_, fun _ _ => trivial⟩
    have := hv.rowLt h0 j hj k hk1 hk2
    omega
  simp only [if_neg hz]
  cases hd : isDense sp with
  | true =>
    have hf := dense_or_full hv hz hd
    obtain ⟨h1, h2⟩ := unpackBlock_spec (nrow sp) (ncol sp) (nrow sp) mem (fun i j => (ai + i, aj + j)) (.inl (le_refl _)) out
    simp only [if_true]
    refine ⟨fun _ i hi j hj => h1 i hi j hj, fun h0 j hj k hk1 hk2 => ?_, fun k hk => ?_⟩
    · have hf := hf.resolve_left (by simp [h0])
      have c1 := hf.col j (le_of_lt hj)
      have c2 := hf.col (j + 1) hj
      change idxcol sp j ≤ k at hk1
      change k < idxcol sp (j + 1) at hk2
      rw [Nat.succ_mul] at c2
      have hr := hf.row j hj (k - j * nrow sp) (by omega)
      have := h1 (k - j * nrow sp) (by omega) j hj
      rw [show k - j * nrow sp + j * nrow sp = k by omega] at hr this
      change _ = mem (ai + row sp k, aj + j)
      rw [hr, this]
    · rw [count_dense hf] at hk
      exact h2 k fun i hi j hj => by have := lt_block hi hj; omega
  | false =>
    have h0 := not_dense hd
    obtain ⟨h1, h2⟩ := gather_spec hv h0 mem (fun i j => (ai + i, aj + j)) out
    refine ⟨fun h => absurd h0 h, fun _ j hj k hk1 hk2 => h1 j k ⟨hj, hk1, hk2⟩, fun k hk => h2 k ?_⟩
    rw [count, if_pos h0] at hk
    exact hk

end

/-- C40, round trip through a column-major array: the nonzeros come back. -/
theorem C40_roundtrip_colmaj {sp : Nat → Nat} (hv : ValidSparsity sp) (inp : List K) (hl : inp.length = nnz sp)
    (out buf : Nat → K) (k : Nat) (hk : k < nnz sp) :
    ∃ o', toColmaj sp (isDense sp) inp out = some o' ∧ fromColmaj sp (isDense sp) o' buf k = val inp k := by
  obtain ⟨o', h1, h2, _⟩ := C40_to_colmaj hv inp hl out
  obtain ⟨f1, f2, _⟩ := C40_from_colmaj hv o' buf
  refine ⟨o', h1, ?_⟩
  rw [nnz_eq hv, count] at hk
  by_cases h0 : sp 2 = 0
  · rw [if_pos h0] at hk
    obtain ⟨j, hj, hk1, hk2⟩ := inCol_exists h0 k hk
    rw [f2 h0 j hj k hk1 hk2]
    exact h2.nonzero h0 j hj k hk1 hk2
  · rw [if_neg h0] at hk
    have hpos : 0 < sp 0 := Nat.pos_of_ne_zero fun h => by rw [h] at hk; omega
    have e : k % sp 0 + k / sp 0 * sp 0 = k := by rw [Nat.mul_comm]; exact Nat.mod_add_div _ _
    have hi := Nat.mod_lt k hpos
    have hj : k / sp 0 < sp 1 := Nat.div_lt_of_lt_mul hk
    have := f1 h0 _ hi _ hj
    have h3 := h2.dense h0 _ hi _ hj
    simp only [e] at this h3
    rw [this, h3]

/-- C40, round trip through a matrix. -/
theorem C40_roundtrip_dmat {sp : Nat → Nat} (hv : ValidSparsity sp) (inp : List K) (hl : inp.length = nnz sp)
    (ai aj : Nat) (out : Nat × Nat → K) (buf : Nat → K) (k : Nat) (hk : k < nnz sp) :
    ∃ o', toDmat sp (isDense sp) ai aj inp out = some o' ∧ fromDmat sp (isDense sp) ai aj o' buf k = val inp k := by
  obtain ⟨o', h1, h2, _⟩ := C40_to_dmat hv inp hl ai aj out
  obtain ⟨f1, f2, _⟩ := C40_from_dmat hv ai aj o' buf
  refine ⟨o', h1, ?_⟩
  rw [nnz_eq hv, count] at hk
  by_cases h0 : sp 2 = 0
  · rw [if_pos h0] at hk
    obtain ⟨j, hj, hk1, hk2⟩ := inCol_exists h0 k hk
    rw [f2 h0 j hj k hk1 hk2]
    exact h2.nonzero h0 j hj k hk1 hk2
  · rw [if_neg h0] at hk
    have hpos : 0 < sp 0 := Nat.pos_of_ne_zero fun h => by rw [h] at hk; omega
    have e : k % sp 0 + k / sp 0 * sp 0 = k := by rw [Nat.mul_comm]; exact Nat.mod_add_div _ _
    have hi := Nat.mod_lt k hpos
    have hj : k / sp 0 < sp 1 := Nat.div_lt_of_lt_mul hk
    have := f1 h0 _ hi _ hj
    have h3 := h2.dense h0 _ hi _ hj
    rw [e] at this
    simp only [e] at h3
    rw [this, h3]

/-- C40, round trip through a vector. -/
theorem C40_roundtrip_dvec {sp : Nat → Nat} (hv : ValidSparsity sp) (hc : sp 1 = 1) (inp : List K)
    (hl : inp.length = nnz sp) (xi : Nat) (out buf : Nat → K) :
    ∃ o' b', toDvec sp (isDense sp) xi inp out = .ok o' ∧ fromDvec sp (isDense sp) xi o' buf = some b'
      ∧ (∀ k < nnz sp, b' k = val inp k) ∧ ∀ k, nnz sp ≤ k → b' k = buf k := by
  obtain ⟨o', h1, h2, _⟩ := (C40_to_dvec_partial hv inp hl xi out).1 (.inl hc)
  have h2 := h2 hc
  rw [nnz_eq hv]
  unfold fromDvec
  simp only [if_neg (show ¬ ¬ (ncol sp = 1 ∨ nrow sp = 0 ∨ ncol sp = 0) by unfold ncol nrow; omega)]
  by_cases hz : nrow sp = 0
  · refine ⟨o', buf, h1, by rw [if_pos hz], fun k hk => ?_, fun _ _ => rfl⟩
    exfalso
    by_cases h0 : sp 2 = 0
    · rw [count, if_pos h0] at hk
      obtain ⟨j, hj⟩ := inCol_exists h0 k hk
      have := row_lt hv h0 hj
      omega
    · rw [count, if_neg h0] at hk
      unfold nrow at hz; rw [hz] at hk; omega
  simp only [if_neg hz]
  cases hd : isDense sp with
  | true =>
    rw [hd] at h1
    have hf := dense_or_full hv (by unfold ncol; omega) hd
    obtain ⟨g1, g2⟩ := unpackBlock_spec (nrow sp) 1 0 o' (fun i _ => xi + i) (.inr (le_refl _)) buf
    have hcnt : count sp = nrow sp := by rw [count_dense hf, ncol, hc, Nat.one_mul]
    refine ⟨o', _, h1, rfl, fun k hk => ?_, fun k hk => g2 k fun i hi j hj => by omega⟩
    rw [hcnt] at hk
    have := g1 k hk 0 (by omega)
    simp only [Nat.zero_mul, Nat.add_zero] at this
    rw [this]
    by_cases h0 : sp 2 = 0
    · have hF := hf.resolve_left (by simp [h0])
      have hr := hF.row 0 (by unfold ncol; omega) k hk
      have c1 := hF.col 1 (by unfold ncol; omega)
      have := h2.nonzero h0 0 (by omega) k (by simp [h0]) (by change k < idxcol sp 1; omega)
      simp only [Nat.zero_mul, Nat.add_zero] at hr
      unfold row ncol at hr
      rw [hr] at this
      exact this
    · have := h2.dense h0 k hk 0 (by omega)
      simpa using this
  | false =>
    rw [hd] at h1
    have h0 := not_dense hd
    obtain ⟨g1, g2⟩ := gather_spec hv h0 o' (fun i _ => xi + i) buf
    have hcnt : count sp = idxcol sp (ncol sp) := by rw [count, if_pos h0]; rfl
    refine ⟨o', _, h1, rfl, fun k hk => ?_, fun k hk => g2 k (by omega)⟩
    obtain ⟨j, hj⟩ := inCol_exists h0 k (by omega)
    rw [g1 j k hj]
    exact h2.nonzero h0 j hj.1 k hj.2.1 hj.2.2

/-! ### Non-vacuity: the `3 × 2` pattern with nonzeros `(0,0)`, `(2,0)`, `(1,1)` -/

/-- raw CasADi array -/
def exSp (n : Nat) : Nat := [3, 2, 0, 2, 3, 0, 2, 1].getD n 0

example : ValidSparsity exSp ∧ ([5, 7, 9] : List Int).length = nnz exSp ∧ isDense exSp = false
    ∧ ∃ o', toColmaj exSp (isDense exSp) ([5, 7, 9] : List Int) (fun _ => -1) = some o'
      ∧ (List.range 7).map o' = [5, 0, 7, 0, 9, 0, -1] := by
  refine ⟨⟨fun _ j hj => ?_, fun _ j hj k h1 h2 => ?_, fun _ j hj k h1 h2 => ?_⟩, by decide, by decide, _, rfl, by decide⟩
  · have : j = 0 ∨ j = 1 := by change j < 2 at hj; omega
    rcases this with rfl | rfl <;> decide
  · have : j = 0 ∨ j = 1 := by change j < 2 at hj; omega
    rcases this with rfl | rfl
    · have : k = 0 ∨ k = 1 := by change k < 2 at h2; omega
      rcases this with rfl | rfl <;> decide
    · have : k = 2 := by change 2 ≤ k at h1; change k < 3 at h2; omega
      subst this; decide
  · have : j = 0 ∨ j = 1 := by change j < 2 at hj; omega
    rcases this with rfl | rfl
    · have : k = 0 := by change k + 1 < 2 at h2; omega
      subst this; decide
    · change 2 ≤ k at h1; change k + 1 < 3 at h2; omega

end Acados.Casadi
