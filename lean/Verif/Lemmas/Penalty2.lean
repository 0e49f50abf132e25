import Verif.Lemmas.Penalty
import Mathlib.Tactic.FieldSimp
/-! Helper lemmas for the Huber penalties of `Verif/Props/Penalty.lean` -/
namespace Acados.Penalty
open Finset Acados.CostForm
variable {K : Type} [Field K] [LinearOrder K] [IsStrictOrderedRing K]

theorem loss_in (w δ v : K) (hδ : 0 < δ) (h : |v| < δ) : huberLoss (2 * w * δ) δ v = w * v ^ 2 := by
  unfold huberLoss
  rw [if_pos h]
  field_simp

theorem loss_pos (w δ v : K) (hδ : 0 < δ) (h : δ ≤ v) : huberLoss (2 * w * δ) δ v = w * δ * (2 * v - δ) := by
  unfold huberLoss
  rw [abs_of_nonneg (by linarith), if_neg (not_lt.2 h)]
  field_simp

theorem loss_neg (w δ v : K) (hδ : 0 < δ) (h : v ≤ -δ) : huberLoss (2 * w * δ) δ v = w * δ * (-2 * v - δ) := by
  unfold huberLoss
  rw [abs_of_nonpos (by linarith), if_neg (by linarith)]
  field_simp

theorem oneSided_eq (w δ u : K) (hδ : 0 < δ) : oneSided w δ u = huberOf w δ (max 0 u) := by
  unfold oneSided oneRaw huberOf
  rw [loss_neg w δ (0 - δ) hδ (by linarith)]
  rcases le_or_gt u 0 with h | h
  · rw [max_eq_left h, if_pos (by linarith), loss_neg w δ (u - δ) hδ (by linarith)]
    ring
  · rw [max_eq_right h.le]
    by_cases h2 : u < 2 * δ
    · rw [if_pos h2.le, loss_in w δ (u - δ) hδ (abs_lt.2 ⟨by linarith, by linarith⟩)]
      ring
    · have h2' := not_lt.1 h2
      rw [loss_pos w δ (u - δ) hδ (by linarith)]
      split
      · rename_i h3
        have : u = 2 * δ := le_antisymm h3 h2'
        rw [this]; ring
      · ring

theorem symmetric_eq (w δ u : K) (hδ : 0 < δ) : symmetric w δ u = huberOf w δ (max 0 (|u| - 1)) := by
  unfold symmetric symRaw huberOf
  rw [loss_neg w δ (0 - (1 + δ)) hδ (by linarith), loss_pos w δ (0 + (1 + δ)) hδ (by linarith)]
  generalize huberLoss (2 * w * δ) δ (-(1 + δ)) = a
  generalize huberLoss (2 * w * δ) δ (1 - δ) = b
  rcases le_or_gt 0 u with h | h
  · rw [abs_of_nonneg h, loss_pos w δ (u + (1 + δ)) hδ (by linarith)]
    rcases le_or_gt u 1 with h1 | h1
    · rw [max_eq_left (by linarith), if_pos (by linarith), loss_neg w δ (u - (1 + δ)) hδ (by linarith)]
      ring
    · rw [max_eq_right (by linarith)]
      by_cases h2 : u - 1 < 2 * δ
      · rw [if_pos h2.le, loss_in w δ (u - (1 + δ)) hδ (abs_lt.2 ⟨by linarith, by linarith⟩)]
        ring
      · have h2' := not_lt.1 h2
        rw [loss_pos w δ (u - (1 + δ)) hδ (by linarith)]
        split
        · rename_i h3
          have : u = 2 * δ + 1 := by linarith
          rw [this]; ring
        · ring
  · rw [abs_of_neg h, loss_neg w δ (u - (1 + δ)) hδ (by linarith)]
    rcases le_or_gt (-u) 1 with h1 | h1
    · rw [max_eq_left (by linarith), if_pos (by linarith), loss_pos w δ (u + (1 + δ)) hδ (by linarith)]
      ring
    · rw [max_eq_right (by linarith)]
      by_cases h2 : -u - 1 < 2 * δ
      · rw [if_pos h2.le, loss_in w δ (u + (1 + δ)) hδ (abs_lt.2 ⟨by linarith, by linarith⟩)]
        ring
      · have h2' := not_lt.1 h2
        rw [loss_neg w δ (u + (1 + δ)) hδ (by linarith)]
        split
        · rename_i h3
          have : u = -(2 * δ + 1) := by linarith
          rw [this]; ring
        · ring

/-- the violation of two bounds -/
def viol2 (l u t : K) : K := max (max 0 (t - u)) (l - t)

theorem viol2_abs (l u t : K) (h : l < u) : max 0 (|2 * (t - (l + 1 / 2 * (u - l))) / (u - l)| - 1) = 2 * viol2 l u t / (u - l) := by
  have hw : 0 < u - l := by linarith
  unfold viol2
  rcases le_or_gt t l with h1 | h1
  · rw [abs_of_nonpos (div_nonpos_of_nonpos_of_nonneg (by linarith) hw.le), max_eq_left (a := (0 : K)) (b := t - u) (by linarith),
      max_eq_right (a := (0 : K)) (b := l - t) (by linarith)]
    have e : -(2 * (t - (l + 1 / 2 * (u - l))) / (u - l)) - 1 = 2 * (l - t) / (u - l) := by field_simp; ring
    rw [e, max_eq_right (div_nonneg (by linarith) hw.le)]
  · rcases le_or_gt u t with h2 | h2
    · rw [abs_of_nonneg (div_nonneg (by linarith) hw.le), max_eq_right (a := (0 : K)) (b := t - u) (by linarith),
        max_eq_left (a := t - u) (b := l - t) (by linarith)]
      have e : 2 * (t - (l + 1 / 2 * (u - l))) / (u - l) - 1 = 2 * (t - u) / (u - l) := by field_simp; ring
      rw [e, max_eq_right (div_nonneg (by linarith) hw.le)]
    · rw [max_eq_left (a := (0 : K)) (b := t - u) (by linarith), max_eq_left (a := (0 : K)) (b := l - t) (by linarith)]
      rw [mul_zero, zero_div, max_eq_left]
      rw [sub_nonpos, abs_le]
      constructor
      · rw [le_div_iff₀ hw]; linarith
      · rw [div_le_iff₀ hw]; linarith

/-- scaling of the argument -/
theorem huberOf_scale (w δ d b : K) (hb : 0 < b) : huberOf (w * b ^ 2) δ (2 * d / b) = huberOf (4 * w) (b * δ / 2) d := by
  unfold huberOf
  have e : 2 * d / b ≤ 2 * δ ↔ d ≤ 2 * (b * δ / 2) := by
    rw [div_le_iff₀ hb]
    constructor <;> intro h <;> linarith
  by_cases h : d ≤ 2 * (b * δ / 2)
  · rw [if_pos (e.2 h), if_pos h]; field_simp; ring
  · rw [if_neg (fun x => h (e.1 x)), if_neg h]; field_simp; ring

/-! ### XGN Hessian -/

theorem xgn_in (w δ v : K) (hδ : 0 < δ) (h : |v| < δ) : huberXgn (2 * w * δ) δ v = 2 * w := by
  unfold huberXgn huberHess huberGrad
  rw [if_pos h, if_pos h]
  split
  · field_simp
  · field_simp

theorem xgn_out (w δ v : K) (hδ : 0 < δ) (h : δ ≤ |v|) : huberXgn (2 * w * δ) δ v = 2 * w * δ / |v| := by
  have h0 : v ≠ 0 := by
    intro hv; rw [hv, abs_zero] at h; linarith
  unfold huberXgn huberGrad
  rw [if_neg h0, if_neg (not_lt.2 h)]
  rcases lt_or_gt_of_ne h0 with h1 | h1
  · rw [if_neg (by linarith), if_pos h1, abs_of_neg h1]
    field_simp
  · rw [if_pos h1, abs_of_pos h1]
    field_simp

theorem loss_abs (w δ v : K) (hδ : 0 < δ) (h : δ ≤ |v|) : huberLoss (2 * w * δ) δ v = w * δ * (2 * |v| - δ) := by
  unfold huberLoss
  rw [if_neg (not_lt.2 h)]
  field_simp

theorem grad_in (w δ v : K) (hδ : 0 < δ) (h : |v| < δ) : huberGrad (2 * w * δ) δ v = 2 * w * v := by
  unfold huberGrad
  rw [if_pos h]
  field_simp

theorem grad_xgn (w δ v : K) (hδ : 0 < δ) : huberGrad (2 * w * δ) δ v = huberXgn (2 * w * δ) δ v * v := by
  unfold huberXgn
  by_cases h : v = 0
  · rw [if_pos h, h, mul_zero]
    unfold huberGrad
    rw [if_pos (by rw [abs_zero]; exact hδ), mul_zero]
  · rw [if_neg h]
    field_simp

/-- the quadratic with the XGN Hessian is above the Huber loss -/
theorem xgn_major (w δ v v' : K) (hw : 0 ≤ w) (hδ : 0 < δ) :
    huberLoss (2 * w * δ) δ v' ≤ huberLoss (2 * w * δ) δ v + huberGrad (2 * w * δ) δ v * (v' - v)
      + 1 / 2 * huberXgn (2 * w * δ) δ v * (v' - v) ^ 2 := by
  have e : huberLoss (2 * w * δ) δ v + huberGrad (2 * w * δ) δ v * (v' - v) + 1 / 2 * huberXgn (2 * w * δ) δ v * (v' - v) ^ 2
      = huberLoss (2 * w * δ) δ v + 1 / 2 * huberXgn (2 * w * δ) δ v * (|v'| ^ 2 - |v| ^ 2) := by
    rw [grad_xgn w δ v hδ, sq_abs, sq_abs]; ring
  rw [e]
  by_cases h : |v| < δ
  · rw [loss_in w δ v hδ h, xgn_in w δ v hδ h, sq_abs, sq_abs]
    by_cases h' : |v'| < δ
    · rw [loss_in w δ v' hδ h']; apply le_of_eq; ring
    · rw [loss_abs w δ v' hδ (not_lt.1 h')]
      have : 0 ≤ w * (|v'| - δ) ^ 2 := mul_nonneg hw (sq_nonneg _)
      have e2 := sq_abs v'
      nlinarith
  · have h := not_lt.1 h
    have hp : 0 < |v| := lt_of_lt_of_le hδ h
    rw [loss_abs w δ v hδ h, xgn_out w δ v hδ h]
    have e3 : w * δ * (2 * |v| - δ) + 1 / 2 * (2 * w * δ / |v|) * (|v'| ^ 2 - |v| ^ 2)
        = w * δ * (|v| - δ + |v'| ^ 2 / |v|) := by field_simp; ring
    rw [e3]
    by_cases h' : |v'| < δ
    · rw [loss_in w δ v' hδ h', ← sq_abs]
      have k : 0 ≤ (|v| - δ) * (δ - |v'| ^ 2 / |v|) := by
        refine mul_nonneg (by linarith) ?_
        rw [sub_nonneg, div_le_iff₀ hp]
        have : |v'| ^ 2 ≤ δ * δ := by nlinarith [abs_nonneg v']
        nlinarith
      have e4 : δ * (|v| - δ + |v'| ^ 2 / |v|) - |v'| ^ 2 = (|v| - δ) * (δ - |v'| ^ 2 / |v|) := by field_simp; ring
      have : |v'| ^ 2 ≤ δ * (|v| - δ + |v'| ^ 2 / |v|) := by linarith
      calc w * |v'| ^ 2 ≤ w * (δ * (|v| - δ + |v'| ^ 2 / |v|)) := mul_le_mul_of_nonneg_left this hw
        _ = _ := by ring
    · rw [loss_abs w δ v' hδ (not_lt.1 h')]
      have k : 0 ≤ (|v'| - |v|) ^ 2 / |v| := div_nonneg (sq_nonneg _) hp.le
      have e4 : |v| + |v'| ^ 2 / |v| - 2 * |v'| = (|v'| - |v|) ^ 2 / |v| := by field_simp; ring
      refine mul_le_mul_of_nonneg_left ?_ (mul_nonneg hw hδ.le)
      linarith

end Acados.Penalty
