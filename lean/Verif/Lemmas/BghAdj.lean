import Verif.Lemmas.Bgh
import Mathlib.Algebra.BigOperators.Group.Finset.Sigma
/-! helper lemmas for the constraint adjoint -/
namespace Acados.Bgh
open Finset
variable {K : Type*} [Field K]

theorem sum_pick (n : Nat) (a : Nat → K) (z : Int) (h0 : 0 ≤ z) (hn : z < n) :
    (∑ r ∈ range n, if (r : Int) = z then a r else 0) = a z.toNat := by
  rw [sum_eq_single z.toNat]
  · rw [if_pos (by omega)]
  · intro b _ hb; rw [if_neg (by omega)]
  · intro h; exact absurd (mem_range.2 (by omega)) h

theorem sum_pick' (n : Nat) (a : Nat → K) (z : Int) (h0 : 0 ≤ z) (hn : z < n) :
    (∑ r ∈ range n, if z = (r : Int) then a r else 0) = a z.toNat := by
  rw [← sum_pick n a z h0 hn]
  exact sum_congr rfl fun r _ => by simp only [eq_comm]

/-- directional derivative of constraint value `i` -/
def dval (dm : Dims) (m : Model K) (DCt : Nat → Nat → K) (δ : Nat → K) (i : Nat) : K :=
  if i < dm.nb then at' δ (m.idxb i)
  else ∑ r ∈ range (dm.nu + dm.nx), DCt r (i - dm.nb) * δ r

theorem linEval_diff (dm : Dims) (m : Model K) (DCt : Nat → Nat → K) (h0 ux δ : Nat → K) (i : Nat) :
    linEval dm m DCt h0 (fun r => ux r + δ r) i - linEval dm m DCt h0 ux i = dval dm m DCt δ i := by
  unfold linEval constrEval dval
  split
  · unfold at'; ring
  · split
    · rw [← sum_sub_distrib]; exact sum_congr rfl fun r _ => by ring
    · next h1 h2 =>
      have : dm.ng + (i - (dm.nb + dm.ng)) = i - dm.nb := by omega
      beta_reduce
      rw [this, add_sub_add_left_eq_sub, ← sum_sub_distrib]
      exact sum_congr rfl fun r _ => by ring

theorem relaxL_diff (dm : Dims) (m : Model K) (rev : Nat → Int) (ux δ : Nat → K) (i : Nat) :
    relaxL dm m rev (fun r => ux r + δ r) i - relaxL dm m rev ux i = relaxL dm m rev δ i := by
  unfold relaxL relaxByRev relaxByIdxs
  split
  · split <;> simp
  · rw [← sum_sub_distrib]; exact sum_congr rfl fun r _ => by split <;> simp

theorem relaxU_diff (dm : Dims) (m : Model K) (rev : Nat → Int) (ux δ : Nat → K) (i : Nat) :
    relaxU dm m rev (fun r => ux r + δ r) i - relaxU dm m rev ux i = relaxU dm m rev δ i := by
  unfold relaxU relaxByRev relaxByIdxs
  split
  · split <;> simp
  · rw [← sum_sub_distrib]; exact sum_congr rfl fun r _ => by split <;> simp

/-- `(u,x)` part of the adjoint pairing -/
theorem adjUx_pair (dm : Dims) (m : Model K) (rev : Nat → Int) (hv : ValidMaps dm m rev)
    (DCt : Nat → Nat → K) (lam δ : Nat → K) :
    ∑ r ∈ range (dm.nu + dm.nx), adjUx dm m DCt lam r * δ r =
      ∑ i ∈ range dm.ni, (lam i - lam (dm.ni + i)) * dval dm m DCt δ i := by
  have hni : dm.ni = dm.nb + (dm.ng + dm.nh) := by unfold Dims.ni; omega
  conv_rhs => rw [hni, sum_range_add]
  simp only [adjUx, add_mul, sum_add_distrib]
  congr 1
  · simp only [sum_mul]
    rw [sum_comm]
    refine sum_congr rfl fun i hi => ?_
    have hi' := mem_range.1 hi
    obtain ⟨h0, h1⟩ := hv.idxb i hi'
    simp only [dval, hi', if_true, at']
    rw [← hni]
    have := sum_pick (dm.nu + dm.nx) (fun r => (lam i - lam (dm.ni + i)) * δ r) (m.idxb i) h0
      (by push_cast; exact h1)
    rw [← this]
    exact sum_congr rfl fun r _ => by split <;> simp
  · simp only [sum_mul]
    rw [sum_comm]
    refine sum_congr rfl fun j hj => ?_
    have hj' : ¬ dm.nb + j < dm.nb := by omega
    simp only [dval, hj', if_false, Nat.add_sub_cancel_left, mul_sum, ← hni]
    exact sum_congr rfl fun r _ => by ring

/-- slack part: the lower slacks -/
theorem adjSoft_pairL (dm : Dims) (m : Model K) (rev : Nat → Int) (hv : ValidMaps dm m rev)
    (lam δ : Nat → K) :
    ∑ k ∈ range dm.ns, adjSoft dm m rev lam (dm.nu + dm.nx + k) * δ (dm.nu + dm.nx + k) =
      ∑ i ∈ range dm.ni, lam i * relaxL dm m rev δ i := by
  cases hr : m.useIdxsRev
  · simp only [adjSoft, relaxL, hr, Bool.false_eq_true, if_false, relaxByIdxs, mul_sum]
    rw [sum_comm]
    refine sum_congr rfl fun k hk => ?_
    have hk' := mem_range.1 hk
    obtain ⟨h0, h1⟩ := hv.idxs hr k hk'
    have h2 : dm.nu + dm.nx + k < dm.nu + dm.nx + dm.ns := by omega
    simp only [h2, if_true, Nat.add_sub_cancel_left, at']
    rw [← sum_pick' dm.ni (fun i => lam i * δ (dm.nu + dm.nx + k)) _ h0 h1]
    exact sum_congr rfl fun i _ => by split <;> simp
  · simp only [adjSoft, relaxL, hr, if_true, relaxByRev]
    have : ∀ k ∈ range dm.ns, (if dm.nu + dm.nx + k < dm.nu + dm.nx + dm.ns then
          ∑ i ∈ range dm.ni, (if 0 ≤ rev i ∧ ((dm.nu + dm.nx + k : Nat) : Int) = dm.nu + dm.nx + rev i then
            lam i else 0)
        else ∑ i ∈ range dm.ni, if 0 ≤ rev i ∧ ((dm.nu + dm.nx + k : Nat) : Int) =
          dm.nu + dm.nx + dm.ns + rev i then lam (dm.ni + i) else 0) * δ (dm.nu + dm.nx + k) =
        ∑ i ∈ range dm.ni, if (k : Int) = rev i then lam i * δ (dm.nu + dm.nx + k) else 0 := by
      intro k hk
      have hk' := mem_range.1 hk
      rw [if_pos (by omega), sum_mul]
      refine sum_congr rfl fun i _ => ?_
      by_cases h : (k : Int) = rev i
      · rw [if_pos h, if_pos (by push_cast; omega)]
      · rw [if_neg h, if_neg (by push_cast; omega), zero_mul]
    rw [sum_congr rfl this, sum_comm]
    refine sum_congr rfl fun i hi => ?_
    by_cases h : 0 ≤ rev i
    · rw [if_pos h, sum_pick dm.ns (fun k => lam i * δ (dm.nu + dm.nx + k)) _ h
        (hv.rev hr i (mem_range.1 hi))]
    · rw [if_neg h, mul_zero]
      refine sum_eq_zero fun k _ => ?_
      rw [if_neg (by omega)]

/-- slack part: the upper slacks -/
theorem adjSoft_pairU (dm : Dims) (m : Model K) (rev : Nat → Int) (hv : ValidMaps dm m rev)
    (lam δ : Nat → K) :
    ∑ k ∈ range dm.ns, adjSoft dm m rev lam (dm.nu + dm.nx + dm.ns + k) * δ (dm.nu + dm.nx + dm.ns + k) =
      ∑ i ∈ range dm.ni, lam (dm.ni + i) * relaxU dm m rev δ i := by
  cases hr : m.useIdxsRev
  · simp only [adjSoft, relaxU, hr, Bool.false_eq_true, if_false, relaxByIdxs, mul_sum]
    rw [sum_comm]
    refine sum_congr rfl fun k hk => ?_
    have hk' := mem_range.1 hk
    obtain ⟨h0, h1⟩ := hv.idxs hr k hk'
    have h2 : ¬ dm.nu + dm.nx + dm.ns + k < dm.nu + dm.nx + dm.ns := by omega
    simp only [h2, if_false, Nat.add_sub_cancel_left]
    rw [at'_add _ _ _ h0]
    have := sum_pick' dm.ni (fun i => lam (dm.ni + i) * δ (dm.nu + dm.nx + dm.ns + k)) _ h0 h1
    rw [← this]
    exact sum_congr rfl fun i _ => by split <;> simp
  · simp only [adjSoft, relaxU, hr, if_true, relaxByRev]
    have : ∀ k ∈ range dm.ns, (if dm.nu + dm.nx + dm.ns + k < dm.nu + dm.nx + dm.ns then
          ∑ i ∈ range dm.ni, (if 0 ≤ rev i ∧ ((dm.nu + dm.nx + dm.ns + k : Nat) : Int) =
            dm.nu + dm.nx + rev i then lam i else 0)
        else ∑ i ∈ range dm.ni, if 0 ≤ rev i ∧ ((dm.nu + dm.nx + dm.ns + k : Nat) : Int) =
          dm.nu + dm.nx + dm.ns + rev i then lam (dm.ni + i) else 0) * δ (dm.nu + dm.nx + dm.ns + k) =
        ∑ i ∈ range dm.ni, if (k : Int) = rev i then
          lam (dm.ni + i) * δ (dm.nu + dm.nx + dm.ns + k) else 0 := by
      intro k hk
      rw [if_neg (by omega), sum_mul]
      refine sum_congr rfl fun i _ => ?_
      by_cases h : (k : Int) = rev i
      · rw [if_pos h, if_pos (by push_cast; omega)]
      · rw [if_neg h, if_neg (by push_cast; omega), zero_mul]
    rw [sum_congr rfl this, sum_comm]
    refine sum_congr rfl fun i hi => ?_
    by_cases h : 0 ≤ rev i
    · rw [if_pos h, sum_pick dm.ns (fun k => lam (dm.ni + i) * δ (dm.nu + dm.nx + dm.ns + k)) _ h
        (hv.rev hr i (mem_range.1 hi))]
    · rw [if_neg h, mul_zero]
      refine sum_eq_zero fun k _ => ?_
      rw [if_neg (by omega)]

/-- difference of the inequality function along a direction, contracted with multipliers that vanish on
masked rows -/
theorem fun_pair (dm : Dims) (m : Model K) (rev : Nat → Int) (hv : ValidMaps dm m rev)
    (DCt : Nat → Nat → K) (h0 ux δ lam : Nat → K)
    (hl : ∀ i < 2 * (dm.ni + dm.ns), m.dmask i = 1 ∨ lam i = 0) :
    ∑ i ∈ range (2 * (dm.ni + dm.ns)), lam i *
      (funOf dm m rev (fun r => ux r + δ r) (linEval dm m DCt h0 (fun r => ux r + δ r)) i
        - funOf dm m rev ux (linEval dm m DCt h0 ux) i) =
    - (∑ i ∈ range dm.ni, (lam i - lam (dm.ni + i)) * dval dm m DCt δ i
      + ∑ i ∈ range dm.ni, lam i * relaxL dm m rev δ i
      + ∑ i ∈ range dm.ni, lam (dm.ni + i) * relaxU dm m rev δ i
      + ∑ k ∈ range (2 * dm.ns), lam (2 * dm.ni + k) * δ (dm.nu + dm.nx + k)) := by
  have hn : 2 * (dm.ni + dm.ns) = (dm.ni + dm.ni) + 2 * dm.ns := by omega
  rw [hn, sum_range_add, sum_range_add]
  have e1 : ∀ i ∈ range dm.ni, lam i *
      (funOf dm m rev (fun r => ux r + δ r) (linEval dm m DCt h0 (fun r => ux r + δ r)) i
        - funOf dm m rev ux (linEval dm m DCt h0 ux) i) =
      - (lam i * dval dm m DCt δ i) - lam i * relaxL dm m rev δ i := by
    intro i hi
    have hi' := mem_range.1 hi
    rw [fun_lower dm m rev hv _ _ i hi', fun_lower dm m rev hv _ _ i hi', ← relaxL_diff dm m rev ux δ i,
      ← linEval_diff dm m DCt h0 ux δ i]
    rcases hl i (by omega) with h | h
    · rw [h]; ring
    · rw [h]; ring
  have e2 : ∀ i ∈ range dm.ni, lam (dm.ni + i) *
      (funOf dm m rev (fun r => ux r + δ r) (linEval dm m DCt h0 (fun r => ux r + δ r)) (dm.ni + i)
        - funOf dm m rev ux (linEval dm m DCt h0 ux) (dm.ni + i)) =
      lam (dm.ni + i) * dval dm m DCt δ i - lam (dm.ni + i) * relaxU dm m rev δ i := by
    intro i hi
    have hi' := mem_range.1 hi
    rw [fun_upper dm m rev hv _ _ i hi', fun_upper dm m rev hv _ _ i hi', ← relaxU_diff dm m rev ux δ i,
      ← linEval_diff dm m DCt h0 ux δ i]
    rcases hl (dm.ni + i) (by omega) with h | h
    · rw [h]; ring
    · rw [h]; ring
  have e3 : ∀ k ∈ range (2 * dm.ns), lam (dm.ni + dm.ni + k) *
      (funOf dm m rev (fun r => ux r + δ r) (linEval dm m DCt h0 (fun r => ux r + δ r))
          (dm.ni + dm.ni + k)
        - funOf dm m rev ux (linEval dm m DCt h0 ux) (dm.ni + dm.ni + k)) =
      - (lam (2 * dm.ni + k) * δ (dm.nu + dm.nx + k)) := by
    intro k hk
    have hk' := mem_range.1 hk
    rw [← two_mul, fun_slack, fun_slack]
    rcases hl (2 * dm.ni + k) (by omega) with h | h
    · rw [h]; ring
    · rw [h]; ring
  rw [sum_congr rfl e1, sum_congr rfl e2, sum_congr rfl e3]
  simp only [sum_sub_distrib, sum_neg_distrib, sub_mul]
  ring

theorem adj_pair (dm : Dims) (m : Model K) (rev : Nat → Int) (hv : ValidMaps dm m rev)
    (DCt : Nat → Nat → K) (δ lam : Nat → K) :
    ∑ r ∈ range (dm.nu + dm.nx + 2 * dm.ns), adj dm m rev DCt lam r * δ r =
      ∑ i ∈ range dm.ni, (lam i - lam (dm.ni + i)) * dval dm m DCt δ i
      + ∑ i ∈ range dm.ni, lam i * relaxL dm m rev δ i
      + ∑ i ∈ range dm.ni, lam (dm.ni + i) * relaxU dm m rev δ i
      + ∑ k ∈ range (2 * dm.ns), lam (2 * dm.ni + k) * δ (dm.nu + dm.nx + k) := by
  rw [sum_range_add]
  have e1 : ∑ r ∈ range (dm.nu + dm.nx), adj dm m rev DCt lam r * δ r =
      ∑ r ∈ range (dm.nu + dm.nx), adjUx dm m DCt lam r * δ r :=
    sum_congr rfl fun r hr => by simp only [adj, mem_range.1 hr, if_true]
  have e2 : ∑ k ∈ range (2 * dm.ns), adj dm m rev DCt lam (dm.nu + dm.nx + k) * δ (dm.nu + dm.nx + k) =
      ∑ k ∈ range (2 * dm.ns), adjSoft dm m rev lam (dm.nu + dm.nx + k) * δ (dm.nu + dm.nx + k)
      + ∑ k ∈ range (2 * dm.ns), lam (2 * dm.ni + k) * δ (dm.nu + dm.nx + k) := by
    rw [← sum_add_distrib]
    refine sum_congr rfl fun k _ => ?_
    have : ¬ dm.nu + dm.nx + k < dm.nu + dm.nx := by omega
    simp only [adj, this, if_false, Nat.add_sub_cancel_left]; ring
  rw [e1, e2, adjUx_pair dm m rev hv, two_mul dm.ns, sum_range_add, adjSoft_pairL dm m rev hv]
  have e3 : ∀ k, dm.nu + dm.nx + (dm.ns + k) = dm.nu + dm.nx + dm.ns + k := fun k => by omega
  have e4 := adjSoft_pairU dm m rev hv lam δ
  simp only [← e3] at e4
  rw [e4]
  ring

end Acados.Bgh
