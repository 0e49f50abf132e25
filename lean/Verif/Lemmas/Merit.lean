import Verif.Model.Merit
import Mathlib.Tactic.Linarith
import Mathlib.Algebra.BigOperators.Ring.Finset
import Mathlib.Tactic.Positivity
import Mathlib.Tactic.FieldSimp
import Mathlib.Tactic.NormNum
import Mathlib.Algebra.Order.Archimedean.Basic
/-! Helper lemmas for merit backtracking. -/
namespace Acados.Merit
open Finset
variable {K : Type*} [Field K] [LinearOrder K] [IsStrictOrderedRing K]

@[simp] theorem lit_zero (d : Nat) : (lit 0 d : K) = 0 := by simp [lit]
@[simp] theorem lit_one_one : (lit 1 1 : K) = 1 := by simp [lit]
theorem lit_pos {n d : Nat} (hn : 0 < n) (hd : 0 < d) : (0 : K) < lit n d := by
  unfold lit; positivity

theorem cabs_eq_abs (x : K) : cabs 0 x = |x| := by
  unfold cabs; split
  · next h => exact (abs_of_neg h).symm
  · next h => exact (abs_of_nonneg (not_lt.1 h)).symm

theorem lsLoop_spec {D : Type*} [Add D] [Sub D] [Mul D] [Div D] [Neg D] [LT D] [LE D]
    [DecidableLT D] [DecidableLE D] [NatCast D] (o : Opts D) (bad : D → Bool)
    (merit : Nat → D → D) (m0 dm : D) (fuel : Nat) :
    ∀ (j : Nat) (alpha last : D) (r : LsResult D),
    lsLoop o bad merit m0 dm fuel j alpha last = some r →
    ∃ i, r.alpha = (fun a => a * o.alphaReduction)^[i] alpha ∧
      (∀ k, k < i → (fun a => a * o.alphaReduction)^[k] alpha * o.alphaReduction > o.alphaMin) ∧
      ((r.status = .success ∧ r.alpha * o.alphaReduction > o.alphaMin ∧
          merit (j + i) r.alpha < m0 + o.eps * dm * r.alpha ∧ bad (merit (j + i) r.alpha) = false) ∨
       (¬ r.alpha * o.alphaReduction > o.alphaMin ∧
          (∀ k, k < i → let a := (fun a => a * o.alphaReduction)^[k] alpha
            ¬ (merit (j + k) a < m0 + o.eps * dm * a ∧ bad (merit (j + k) a) = false)) ∧
          let l := if i = 0 then last else
            merit (j + (i - 1)) ((fun a => a * o.alphaReduction)^[i - 1] alpha)
          ((r.status = .nanDetected ∧ bad l = true) ∨ (r.status = .minStep ∧ bad l = false)))) := by
  induction fuel with
  | zero => intro j alpha last r h; simp [lsLoop] at h
  | succ f ih =>
    intro j alpha last r h
    simp only [lsLoop] at h
    split at h
    · next hc =>
      split at h
      · next ha =>
        simp only [Option.some.injEq] at h
        simp only [Bool.and_eq_true, decide_eq_true_eq, Bool.not_eq_true'] at ha
        subst h
        refine ⟨0, rfl, fun k hk => absurd hk (by omega), .inl ⟨rfl, hc, ?_⟩⟩
        simpa using ha
      · next ha =>
        obtain ⟨i, hal, hk, hrest⟩ := ih (j + 1) _ _ r h
        refine ⟨i + 1, hal, ?_, ?_⟩
        · intro k hk'
          cases k with
          | zero => exact hc
          | succ k => exact hk k (by omega)
        · rcases hrest with ⟨h1, h2, h3, h4⟩ | ⟨h1, h2, h3⟩
          · left
            refine ⟨h1, h2, ?_, ?_⟩
            · rw [show j + (i + 1) = j + 1 + i by omega]; exact h3
            · rw [show j + (i + 1) = j + 1 + i by omega]; exact h4
          · right
            refine ⟨h1, ?_, ?_⟩
            · intro k hk'
              cases k with
              | zero =>
                simp only [Bool.and_eq_true, decide_eq_true_eq, Bool.not_eq_true'] at ha
                simpa using ha
              | succ k =>
                have := h2 k (by omega)
                rw [show j + (k + 1) = j + 1 + k by omega]
                exact this
            · cases i with
              | zero => simpa using h3
              | succ i =>
                simp only [Nat.add_eq_zero_iff, one_ne_zero, and_false, if_false,
                  Nat.add_sub_cancel] at h3 ⊢
                rw [show j + (i + 1) = j + 1 + i by omega]
                exact h3
    · next hc =>
      refine ⟨0, ?_⟩
      split at h
      · next hb =>
        simp only [Option.some.injEq] at h; subst h
        exact ⟨rfl, fun k hk => absurd hk (by omega), .inr ⟨hc, fun k hk => absurd hk (by omega),
          .inl ⟨rfl, by simpa using hb⟩⟩⟩
      · next hb =>
        simp only [Option.some.injEq] at h; subst h
        exact ⟨rfl, fun k hk => absurd hk (by omega), .inr ⟨hc, fun k hk => absurd hk (by omega),
          .inr ⟨rfl, by simpa using hb⟩⟩⟩

theorem lsLoop_terminates {D : Type*} [Add D] [Sub D] [Mul D] [Div D] [Neg D] [LT D] [LE D]
    [DecidableLT D] [DecidableLE D] [NatCast D] (o : Opts D) (bad : D → Bool)
    (merit : Nat → D → D) (m0 dm : D) (n : Nat) :
    ∀ (j : Nat) (alpha last : D) (fuel : Nat),
    ¬ (fun a => a * o.alphaReduction)^[n] alpha * o.alphaReduction > o.alphaMin → n < fuel →
    ∃ r, lsLoop o bad merit m0 dm fuel j alpha last = some r := by
  induction n with
  | zero =>
    intro j alpha last fuel h hf
    obtain ⟨f, rfl⟩ : ∃ f, fuel = f + 1 := ⟨fuel - 1, by omega⟩
    simp only [Function.iterate_zero, id_eq] at h
    simp only [lsLoop]
    rw [if_neg h]
    split <;> exact ⟨_, rfl⟩
  | succ n ih =>
    intro j alpha last fuel h hf
    obtain ⟨f, rfl⟩ : ∃ f, fuel = f + 1 := ⟨fuel - 1, by omega⟩
    simp only [lsLoop]
    split
    · split
      · exact ⟨_, rfl⟩
      · exact ih _ _ _ f h (by omega)
    · split <;> exact ⟨_, rfl⟩

theorem iterate_mul_pow (r a : K) (n : Nat) : (fun x => x * r)^[n] a = a * r ^ n := by
  induction n generalizing a with
  | zero => simp
  | succ n ih => rw [Function.iterate_succ_apply, ih]; ring

theorem ddpLoop_spec {X : Type*} (o : Opts K) (pred cost : K) (trial : Nat → K → X × K)
    (fuel : Nat) : ∀ (j : Nat) (alpha : K) (st : Status) (a c : K) (x : X),
    ddpLoop o pred cost trial fuel j alpha = some (st, a, c, x) →
    (∃ i, st = .success ∧ a = alpha * o.alphaReduction ^ i ∧ trial (j + i) a = (x, c) ∧
      c - cost ≤ min (-o.eps * a * max pred 0 + lit 1 1000000000000000000) 0) ∨
    (st = .minStep ∧ a = 0 ∧ c = cost) := by
  induction fuel with
  | zero => intro j alpha st a c x h; simp [ddpLoop] at h
  | succ f ih =>
    intro j alpha st a c x h
    simp only [ddpLoop, cmin_eq_min, cmax_eq_max, lit_zero] at h
    split at h
    · next hc =>
      simp only [Option.some.injEq, Prod.mk.injEq] at h
      obtain ⟨rfl, rfl, rfl, rfl⟩ := h
      exact .inl ⟨0, rfl, by simp, rfl, hc⟩
    · split at h
      · simp only [Option.some.injEq, Prod.mk.injEq] at h
        obtain ⟨rfl, rfl, rfl, rfl⟩ := h
        exact .inr ⟨rfl, rfl, rfl⟩
      · rcases ih _ _ st a c x h with ⟨i, h1, h2, h3, h4⟩ | h'
        · refine .inl ⟨i + 1, h1, ?_, ?_, h4⟩
          · rw [h2]; ring
          · rw [show j + (i + 1) = j + 1 + i by omega]; exact h3
        · exact .inr h'

theorem ddpLoop_terminates {X : Type*} (o : Opts K) (pred cost : K) (trial : Nat → K → X × K)
    (n : Nat) : ∀ (j : Nat) (alpha : K) (fuel : Nat),
    alpha * o.alphaReduction ^ (n + 1) < o.alphaMin → n < fuel →
    ∃ r, ddpLoop o pred cost trial fuel j alpha = some r := by
  induction n with
  | zero =>
    intro j alpha fuel h hf
    obtain ⟨f, rfl⟩ : ∃ f, fuel = f + 1 := ⟨fuel - 1, by omega⟩
    simp only [zero_add, pow_one] at h
    simp only [ddpLoop]
    split
    · exact ⟨_, rfl⟩
    · exact ⟨_, rfl⟩
  | succ n ih =>
    intro j alpha fuel h hf
    obtain ⟨f, rfl⟩ : ∃ f, fuel = f + 1 := ⟨fuel - 1, by omega⟩
    simp only [ddpLoop]
    split
    · exact ⟨_, rfl⟩
    · split
      · exact ⟨_, rfl⟩
      · refine ih _ _ f ?_ (by omega)
        rw [mul_assoc, ← pow_succ']; exact h

/-- finitely many "for small α" statements hold together -/
theorem exists_uniform {ι : Type*} (s : Finset ι) (P : ι → K → Prop)
    (h : ∀ i ∈ s, ∃ δ > 0, ∀ a, 0 ≤ a → a ≤ δ → P i a) :
    ∃ δ > 0, ∀ a, 0 ≤ a → a ≤ δ → ∀ i ∈ s, P i a := by
  classical
  induction s using Finset.induction_on with
  | empty => exact ⟨1, one_pos, by simp⟩
  | insert i s hi ih =>
    obtain ⟨d1, h1, H1⟩ := h i (by simp)
    obtain ⟨d2, h2, H2⟩ := ih (fun k hk => h k (by simp [hk]))
    refine ⟨min d1 d2, lt_min h1 h2, ?_⟩
    intro a ha hle k hk
    rcases Finset.mem_insert.1 hk with rfl | hk
    · exact H1 a ha (hle.trans (min_le_left _ _))
    · exact H2 a ha (hle.trans (min_le_right _ _)) k hk

end Acados.Merit
