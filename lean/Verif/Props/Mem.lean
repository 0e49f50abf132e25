import Verif.Lemmas.Mem
/-! # Properties C01 (alignment helpers) and the general part of C02 (buffer sufficiency) -/
namespace Acados.Mem

/-- Specification: `r` is the least multiple of `num` that is at least `n`. -/
def IsLeastMultipleGE (num n r : Nat) : Prop :=
  num ∣ r ∧ n ≤ r ∧ ∀ s, num ∣ s → n ≤ s → r ≤ s

theorem least_of_ceil (num n : Nat) (h : 0 < num) :
    IsLeastMultipleGE num n ((n + num - 1) / num * num) := by
  obtain ⟨h1, h2, h3⟩ := ceil_mul_spec num n h
  refine ⟨h1, h2, ?_⟩
  intro s hs hn
  obtain ⟨k, hk⟩ := h1
  obtain ⟨j, rfl⟩ := hs
  rw [hk] at h3 ⊢
  apply Nat.mul_le_mul_left
  have : num * k < num * (j + 1) := by rw [Nat.mul_succ]; omega
  exact Nat.lt_succ_iff.1 (Nat.lt_of_mul_lt_mul_left this)

/-- C01: `make_int_multiple_of` yields the least multiple of `num` not below the old size. -/
theorem C01_make_int_multiple_of (num size : Nat) (h : 0 < num) :
    IsLeastMultipleGE num size (makeIntMultipleOf num size) := by
  unfold makeIntMultipleOf
  split
  · exact least_of_ceil num size h
  · have : num = 1 := by omega
    subst this
    exact ⟨Nat.one_dvd _, Nat.le_refl _, fun s _ hs => hs⟩

/-- C01: `align_char_to` moves the pointer to the least aligned address not below it. -/
theorem C01_align_char_to (num ptr : Nat) (h : 0 < num) :
    IsLeastMultipleGE num ptr (alignCharTo num ptr) := least_of_ceil num ptr h

/-- C01: a second call of either helper changes nothing. -/
theorem C01_idempotent (num n : Nat) (h : 0 < num) :
    makeIntMultipleOf num (makeIntMultipleOf num n) = makeIntMultipleOf num n ∧
    alignCharTo num (alignCharTo num n) = alignCharTo num n := by
  constructor
  · obtain ⟨h1, h2, _⟩ := C01_make_int_multiple_of num n h
    obtain ⟨_, h5, h6⟩ := C01_make_int_multiple_of num (makeIntMultipleOf num n) h
    exact Nat.le_antisymm (h6 _ h1 (Nat.le_refl _)) h5
  · obtain ⟨h1, h2, _⟩ := C01_align_char_to num n h
    obtain ⟨_, h5, h6⟩ := C01_align_char_to num (alignCharTo num n) h
    exact Nat.le_antisymm (h6 _ h1 (Nat.le_refl _)) h5

/-- C01: padding is smaller than the alignment; the value returned by `align_char_to` is
`num - padding` and hence lies in `1..num`. -/
theorem C01_padding (num ptr : Nat) (h : 0 < num) :
    alignCharTo num ptr - ptr < num ∧ ptr ≤ alignCharTo num ptr ∧
    1 ≤ alignCharToOffset num ptr ∧ alignCharToOffset num ptr ≤ num := by
  have h1 := @le_alignCharTo num ptr h
  have h2 := @alignCharTo_lt num ptr h
  unfold alignCharToOffset
  refine ⟨by omega, h1, ?_, ?_⟩ <;> omega

example : alignCharTo 64 1000 = 1024 ∧ alignCharToOffset 64 1000 = 40 := by decide
example : makeIntMultipleOf 8 13 = 16 := by decide

/-- Specification of C02: started at `base`, the assign function runs to its end without an
assertion failure; every array handed out lies in the caller's buffer `[base, base + size)`, is
aligned for its element type, and the arrays are pairwise disjoint (handed out left to right). -/
def FitsAt (ops : List Op) (size base : Nat) : Prop :=
  ∃ rs q, run ops base = some (rs, q) ∧ q ≤ base + size ∧
    (∀ r ∈ rs, base ≤ r.start ∧ r.start + r.size ≤ base + size ∧ r.natural ∣ r.start) ∧
    rs.Pairwise (fun r s => r.start + r.size ≤ s.start)

/-- The buffer suffices wherever the caller places it, as long as it is 8-byte aligned. -/
def Fits (ops : List Op) (size : Nat) : Prop := ∀ base, 8 ∣ base → FitsAt ops size base

/-- The buffer suffices at every address (also unaligned ones). -/
def FitsAnywhere (ops : List Op) (size : Nat) : Prop := ∀ base, FitsAt ops size base

theorem fitsAt_of (ops : List Op) (size m base : Nat) (hm : m ∣ base) (hal : AlOK m ops)
    (hneed : need ops ≤ size) : FitsAt ops size base := by
  obtain ⟨rs, q, hr, h1, h2, h3, h4⟩ := run_ok ops m base hm hal
  refine ⟨rs, q, hr, by omega, ?_, h4⟩
  intro r hrs
  have := h3 r hrs
  exact ⟨this.1, by omega, this.2.2⟩

/-- C02 (general form): worst-case padding plus payload within the calculated size is enough. -/
theorem fits_of (ops : List Op) (size : Nat) (hal : AlOK 8 ops) (hneed : need ops ≤ size) :
    Fits ops size := fun base hb => fitsAt_of ops size 8 base hb hal hneed

end Acados.Mem
