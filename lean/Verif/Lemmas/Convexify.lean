import Verif.Model.Convexify
import Verif.Spec.Quad
import Verif.Props.Reg
/-!
# Lemmas about convexification
-/
namespace Acados.Conv
open Finset
open Acados.Reg (trtrL lowerSym project pack)
variable {K : Type*} [Field K] [LinearOrder K] [IsStrictOrderedRing K]

theorem quad_congr (n : Nat) (A B : Nat → Nat → K) (x : Nat → K)
    (h : ∀ i < n, ∀ j < n, A i j = B i j) : quad n A x = quad n B x := by
  unfold quad
  refine sum_congr rfl fun i hi => ?_
  congr 1
  exact sum_congr rfl fun j hj => by rw [h i (mem_range.1 hi) j (mem_range.1 hj)]

theorem quad_add (n : Nat) (A B : Nat → Nat → K) (x : Nat → K) :
    quad n (fun i j => A i j + B i j) x = quad n A x + quad n B x := by
  unfold quad
  rw [← sum_add_distrib]
  refine sum_congr rfl fun i _ => ?_
  rw [← mul_add, ← sum_add_distrib]
  congr 1
  exact sum_congr rfl fun j _ => by ring

/-- a matrix supported on the trailing block -/
theorem quad_block (u x : Nat) (M : Nat → Nat → K) (z : Nat → K)
    (h : ∀ i < u + x, ∀ j < u + x, i < u ∨ j < u → M i j = 0) :
    quad (u + x) M z = quad x (fun i j => M (u + i) (u + j)) (fun i => z (u + i)) := by
  unfold quad
  rw [sum_range_add]
  have h1 : ∑ i ∈ range u, z i * ∑ j ∈ range (u + x), M i j * z j = 0 := by
    refine sum_eq_zero fun i hi => ?_
    have hi' := mem_range.1 hi
    rw [sum_eq_zero fun j hj => ?_, mul_zero]
    rw [h i (by omega) j (mem_range.1 hj) (Or.inl hi'), zero_mul]
  rw [h1, zero_add]
  refine sum_congr rfl fun i hi => ?_
  have hi' := mem_range.1 hi
  congr 1
  rw [sum_range_add]
  rw [sum_eq_zero fun j hj => ?_, zero_add]
  rw [h (u + i) (by omega) j (by have := mem_range.1 hj; omega) (Or.inr (mem_range.1 hj)), zero_mul]

/-- `zᵀ (B Q Bᵀ) z = (Bᵀ z)ᵀ Q (Bᵀ z)` -/
theorem quad_congruence (n m : Nat) (B : Nat → Nat → K) (Q : Nat → Nat → K) (z : Nat → K) :
    quad n (fun i j => ∑ l ∈ range m, B i l * ∑ k ∈ range m, B j k * Q l k) z
      = quad m Q (fun l => ∑ r ∈ range n, B r l * z r) := by
  unfold quad
  have e1 : ∀ i ∈ range n, z i * ∑ j ∈ range n,
      (∑ l ∈ range m, B i l * ∑ k ∈ range m, B j k * Q l k) * z j
      = ∑ l ∈ range m, (B i l * z i) * ∑ k ∈ range m, Q l k * ∑ j ∈ range n, B j k * z j := by
    intro i _
    rw [mul_sum]
    simp only [sum_mul, mul_sum]
    rw [sum_comm]
    refine sum_congr rfl fun l _ => ?_
    rw [sum_comm]
    refine sum_congr rfl fun k _ => ?_
    refine sum_congr rfl fun j _ => by ring
  rw [sum_congr rfl e1, sum_comm]
  refine sum_congr rfl fun l _ => ?_
  rw [← sum_mul]

theorem quad_add_vec (m : Nat) (Q : Nat → Nat → K) (hQ : SymOn m Q) (y b : Nat → K) :
    quad m Q (fun l => y l + b l) = quad m Q y + 2 * (∑ l ∈ range m, b l * ∑ k ∈ range m, Q l k * y k)
      + quad m Q b := by
  unfold quad
  have e : ∑ l ∈ range m, y l * ∑ k ∈ range m, Q l k * b k
      = ∑ l ∈ range m, b l * ∑ k ∈ range m, Q l k * y k := by
    simp only [mul_sum]
    rw [sum_comm]
    refine sum_congr rfl fun l hl => sum_congr rfl fun k hk => ?_
    rw [hQ k (mem_range.1 hk) l (mem_range.1 hl)]; ring
  have e2 : ∑ l ∈ range m, (y l + b l) * ∑ k ∈ range m, Q l k * (y k + b k)
      = ∑ l ∈ range m, y l * ∑ k ∈ range m, Q l k * y k
        + ∑ l ∈ range m, y l * ∑ k ∈ range m, Q l k * b k
        + (∑ l ∈ range m, b l * ∑ k ∈ range m, Q l k * y k
        + ∑ l ∈ range m, b l * ∑ k ∈ range m, Q l k * b k) := by
    rw [← sum_add_distrib, ← sum_add_distrib, ← sum_add_distrib]
    refine sum_congr rfl fun l _ => ?_
    have : ∑ k ∈ range m, Q l k * (y k + b k)
        = ∑ k ∈ range m, Q l k * y k + ∑ k ∈ range m, Q l k * b k := by
      rw [← sum_add_distrib]; exact sum_congr rfl fun k _ => by ring
    rw [this]; ring
  rw [e2, e]; ring

theorem lowerSym_congr (n : Nat) (A B : Nat → Nat → K) (h : ∀ i < n, ∀ j ≤ i, A i j = B i j) :
    ∀ i < n, ∀ j < n, lowerSym A i j = lowerSym B i j := by
  intro i hi j hj
  unfold lowerSym
  split
  · next hji => exact h i hi j hji
  · next hji => exact h j hj i (by omega)

theorem trtrL_lowerSym (n : Nat) (A : Nat → Nat → K) (i j : Nat) (hi : i < n) (hj : j < n) :
    trtrL n A i j = lowerSym A i j := by
  unfold trtrL lowerSym
  by_cases h : j ≤ i
  · rw [if_pos h, if_neg (by omega)]
  · rw [if_neg h, if_pos (by omega)]

/-! ### one stage: what the new memory contains -/

/-- `[B A]·Qbar·[B A]ᵀ` -/
def G (D : Data K) (ii : Nat) (Q : Nat → Nat → K) : Nat → Nat → K := fun i j =>
  ∑ l ∈ range (D.nx (ii + 1)), D.BAbt ii i l * ∑ k ∈ range (D.nx (ii + 1)), D.BAbt ii j k * Q l k

theorem stage_frame (E : Ext K) (D : Data K) (ii : Nat) (s : Mem K) (i : Nat) (h : i ≠ ii) :
    (stage E D ii s).RSQ i = s.RSQ i ∧ (stage E D ii s).rq i = s.rq i ∧
    (stage E D ii s).orig i = s.orig i ∧ (stage E D ii s).reg i = s.reg i := by
  simp only [stage, Function.update_of_ne h, and_self]

theorem stage_Qbar_sym (E : Ext K) (D : Data K) (ii : Nat) (s : Mem K) :
    SymOn (D.nx ii) (stage E D ii s).Qbar := Acados.Reg.trtrL_sym _ _

/-- gradient after the stage -/
theorem stage_rq (E : Ext K) (D : Data K) (ii : Nat) (s : Mem K) (hx : D.nx (ii + 1) ≤ D.nx ii)
    (j : Nat) (hj : j < D.nux ii) :
    (stage E D ii s).rq ii j = s.rq ii j + ∑ l ∈ range (D.nx (ii + 1)),
      D.b ii l * ∑ k ∈ range (D.nx (ii + 1)), D.BAbt ii j k * s.Qbar l k := by
  simp only [stage, Function.update_self, if_pos hj, stA2]
  rw [if_pos ⟨by omega, hj, by omega⟩]
  congr 1
  · simp [stA1, rowin, hj]
  · refine sum_congr rfl fun l hl => ?_
    have hl' := mem_range.1 hl
    rw [stBAQ, if_pos ⟨hj, by omega⟩]
    congr 1
    · simp [Data.BAb]
    · refine sum_congr rfl fun k _ => ?_
      rw [Data.BAb, if_neg (by omega)]

theorem stage_orig_row (E : Ext K) (D : Data K) (ii : Nat) (s : Mem K) (j : Nat)
    (hj : j < D.nux ii) : (stage E D ii s).orig ii (D.nux ii) j = s.rq ii j := by
  simp only [stage, Function.update_self, stOrig]
  rw [if_neg (by omega), gecp, if_pos ⟨by omega, hj⟩, stA1, rowin, if_pos ⟨rfl, hj⟩]

theorem gecp_A1 (D : Data K) (ii : Nat) (s : Mem K) (i j : Nat) (hi : i < D.nux ii)
    (hj : j < D.nux ii) :
    gecp (D.nux ii + 1) (D.nux ii) (stA1 D ii s) (s.orig ii) i j = s.RSQ ii i j := by
  rw [gecp, if_pos ⟨by omega, hj⟩, stA1, rowin, if_neg (by omega)]

/-- the backup Hessian of a stage that was not projected is the Hessian that was passed in -/
theorem stage_orig_block (E : Ext K) (D : Data K) (ii : Nat) (s : Mem K)
    (hreg : (stage E D ii s).reg ii = false) (i j : Nat) (hi : i < D.nux ii) (hj : j < D.nux ii) :
    (stage E D ii s).orig ii i j = s.RSQ ii i j := by
  simp only [stage, Function.update_self] at hreg ⊢
  rw [stOrig, if_neg (by simp [hreg]), gecp_A1 D ii s i j hi hj]

theorem stA2_lower (D : Data K) (ii : Nat) (s : Mem K) (hx : D.nx (ii + 1) ≤ D.nx ii) (i j : Nat)
    (hi : i < D.nux ii) (hj : j ≤ i) :
    stA2 D ii s i j = s.RSQ ii i j + G D ii s.Qbar i j := by
  rw [stA2, if_pos ⟨by omega, by omega, hj⟩]
  congr 1
  · rw [stA1, rowin, if_neg (by omega)]
  · unfold G
    refine sum_congr rfl fun l hl => ?_
    have hl' := mem_range.1 hl
    rw [stBAQ, if_pos ⟨by omega, by omega⟩, Data.BAb, if_neg (by omega)]
    congr 1
    refine sum_congr rfl fun k _ => ?_
    rw [Data.BAb, if_neg (by omega)]

theorem stOrig_eq (E : Ext K) (D : Data K) (ii : Nat) (s : Mem K) (hx : D.nx (ii + 1) ≤ D.nx ii)
    (i j : Nat) (hi : i < D.nux ii) (hj : j ≤ i) :
    stOrig E D ii s i j + G D ii s.Qbar i j = stA3 E D ii s i j := by
  unfold stOrig
  rw [gecp_A1 D ii s i j hi (by omega)]
  by_cases hr : stReg E D ii s = true
  · rw [if_pos ⟨hr, hi, by omega⟩, stA2_lower D ii s hx i j hi hj]; ring
  · rw [if_neg (by tauto), stA3, if_neg hr, stA2_lower D ii s hx i j hi hj]

theorem G_sym (D : Data K) (ii : Nat) (Q : Nat → Nat → K) (hQ : SymOn (D.nx (ii + 1)) Q) (i j : Nat) :
    G D ii Q i j = G D ii Q j i := by
  unfold G
  simp only [mul_sum]
  rw [sum_comm]
  refine sum_congr rfl fun l hl => sum_congr rfl fun k hk => ?_
  rw [hQ k (mem_range.1 hk) l (mem_range.1 hl)]; ring

theorem lowerSym_orig (E : Ext K) (D : Data K) (ii : Nat) (s : Mem K)
    (hx : D.nx (ii + 1) ≤ D.nx ii) (hQ : SymOn (D.nx (ii + 1)) s.Qbar) (i j : Nat)
    (hi : i < D.nux ii) (hj : j < D.nux ii) :
    lowerSym (stA3 E D ii s) i j = lowerSym (stOrig E D ii s) i j + G D ii s.Qbar i j := by
  unfold lowerSym
  by_cases h : j ≤ i
  · simp only [if_pos h]; exact (stOrig_eq E D ii s hx i j hi h).symm
  · simp only [if_neg h]; rw [G_sym D ii s.Qbar hQ i j]
    exact (stOrig_eq E D ii s hx j i hj (by omega)).symm

theorem stA4_left (E : Ext K) (D : Data K) (ii : Nat) (s : Mem K) (i j : Nat)
    (h : i < D.nu ii ∨ j < D.nu ii) : lowerSym (stA4 E D ii s) i j = lowerSym (stA3 E D ii s) i j := by
  have h4 : ∀ i j, j < D.nu ii → stA4 E D ii s i j = stA3 E D ii s i j := by
    intro i j hj
    simp only [stA4]
    rw [if_neg (by omega)]
  unfold lowerSym
  split
  · next hji => exact h4 i j (by omega)
  · next hji => exact h4 j i (by omega)

theorem stage_Qbar (E : Ext K) (D : Data K) (ii : Nat) (s : Mem K) (i j : Nat) (hi : i < D.nx ii)
    (hj : j < D.nx ii) : (stage E D ii s).Qbar i j
      = lowerSym (stA3 E D ii s) (D.nu ii + i) (D.nu ii + j)
        - lowerSym (stA4 E D ii s) (D.nu ii + i) (D.nu ii + j) := by
  simp only [stage]
  rw [trtrL_lowerSym _ _ _ _ hi hj]
  unfold lowerSym
  by_cases h : j ≤ i
  · simp only [hi, hj, h, and_self, if_true, Nat.add_le_add_iff_left]
  · simp only [hi, hj, h, and_self, if_true, Nat.add_le_add_iff_left, if_false]

/-- Hessian before the Schur complement is replaced: backup plus the propagated term -/
theorem stage_split (E : Ext K) (D : Data K) (ii : Nat) (s : Mem K)
    (hx : D.nx (ii + 1) ≤ D.nx ii) (hQ : SymOn (D.nx (ii + 1)) s.Qbar) (z : Nat → K) :
    quad (D.nux ii) (lowerSym ((stage E D ii s).RSQ ii)) z
      + quad (D.nx ii) (stage E D ii s).Qbar (fun i => z (D.nu ii + i))
      = quad (D.nux ii) (lowerSym ((stage E D ii s).orig ii)) z
        + quad (D.nux ii) (G D ii s.Qbar) z := by
  have e1 : (stage E D ii s).RSQ ii = stA4 E D ii s := by simp only [stage, Function.update_self]
  have e2 : (stage E D ii s).orig ii = stOrig E D ii s := by simp only [stage, Function.update_self]
  rw [e1, e2, ← quad_add]
  have h1 : quad (D.nux ii) (lowerSym (stA3 E D ii s)) z
      = quad (D.nux ii) (fun i j => lowerSym (stA4 E D ii s) i j +
        (lowerSym (stA3 E D ii s) i j - lowerSym (stA4 E D ii s) i j)) z :=
    quad_congr _ _ _ z fun i _ j _ => by ring
  have h2 := quad_block (D.nu ii) (D.nx ii)
    (fun i j => lowerSym (stA3 E D ii s) i j - lowerSym (stA4 E D ii s) i j) z
    (fun i _ j _ hor => by rw [stA4_left E D ii s i j hor]; ring)
  rw [quad_add] at h1
  have h3 : quad (D.nx ii) (stage E D ii s).Qbar (fun i => z (D.nu ii + i))
      = quad (D.nux ii) (fun i j => lowerSym (stA3 E D ii s) i j - lowerSym (stA4 E D ii s) i j) z := by
    refine Eq.trans ?_ h2.symm
    exact quad_congr _ _ _ _ fun i hi j hj => stage_Qbar E D ii s i j hi hj
  rw [h3, ← h1]
  exact quad_congr _ _ _ z fun i hi j hj => lowerSym_orig E D ii s hx hQ i j hi hj

/-! ### the whole sweep -/

/-- memory after the terminal stage and `t` further stages -/
def run (E : Ext K) (D : Data K) (s : Mem K) : Nat → Mem K
  | 0 => terminal D s
  | t + 1 => stage E D (D.N - (t + 1)) (run E D s t)

theorem regularize_run (E : Ext K) (D : Data K) (s : Mem K) : regularize E D s = run E D s D.N := by
  have : ∀ k ≤ D.N, loop E D k (run E D s (D.N - k)) = run E D s D.N := by
    intro k
    induction k with
    | zero => intro _; simp [loop]
    | succ k ih =>
      intro hk
      rw [loop]
      have e : stage E D k (run E D s (D.N - (k + 1))) = run E D s (D.N - k) := by
        have h1 : D.N - k = (D.N - (k + 1)) + 1 := by omega
        rw [h1, run]
        congr 1
        omega
      rw [e]
      exact ih (by omega)
  have h := this D.N le_rfl
  rw [Nat.sub_self] at h
  exact h

theorem run_keep (E : Ext K) (D : Data K) (s : Mem K) (t i : Nat) (h : i < D.N - t) :
    (run E D s t).RSQ i = s.RSQ i ∧ (run E D s t).rq i = s.rq i := by
  induction t with
  | zero =>
    have : i ≠ D.N := by omega
    simp [run, terminal, Function.update_of_ne this]
  | succ t ih =>
    obtain ⟨h1, h2⟩ := ih (by omega)
    obtain ⟨f1, f2, _⟩ := stage_frame E D (D.N - (t + 1)) (run E D s t) i (by omega)
    exact ⟨f1.trans h1, f2.trans h2⟩

theorem run_done (E : Ext K) (D : Data K) (s : Mem K) (i : Nat) (hi : i < D.N) (t : Nat)
    (ht : t ≤ D.N) (h : D.N - t ≤ i) :
    let p := stage E D i (run E D s (D.N - (i + 1)))
    (run E D s t).RSQ i = p.RSQ i ∧ (run E D s t).rq i = p.rq i ∧
    (run E D s t).orig i = p.orig i ∧ (run E D s t).reg i = p.reg i := by
  intro p
  induction t with
  | zero => omega
  | succ t ih =>
    by_cases hc : D.N - (t + 1) = i
    · have ht' : D.N - (i + 1) = t := by omega
      simp only [run, p, hc, ht', and_self]
    · obtain ⟨f1, f2, f3, f4⟩ := stage_frame E D (D.N - (t + 1)) (run E D s t) i (by omega)
      obtain ⟨g1, g2, g3, g4⟩ := ih (by omega) (by omega)
      exact ⟨f1.trans g1, f2.trans g2, f3.trans g3, f4.trans g4⟩

theorem run_terminal (E : Ext K) (D : Data K) (s : Mem K) (t : Nat) (ht : t ≤ D.N) :
    (run E D s t).RSQ D.N = (terminal D s).RSQ D.N ∧ (run E D s t).rq D.N = s.rq D.N ∧
    (run E D s t).orig D.N = (terminal D s).orig D.N := by
  induction t with
  | zero => exact ⟨rfl, rfl, rfl⟩
  | succ t ih =>
    obtain ⟨f1, f2, f3, _⟩ := stage_frame E D (D.N - (t + 1)) (run E D s t) D.N (by omega)
    obtain ⟨g1, g2, g3⟩ := ih (by omega)
    exact ⟨f1.trans g1, f2.trans g2, f3.trans g3⟩

theorem run_Qbar_sym (E : Ext K) (D : Data K) (s : Mem K) (t : Nat) :
    SymOn (D.nx (D.N - t)) (run E D s t).Qbar := by
  cases t with
  | zero => exact Acados.Reg.trtrL_sym _ _
  | succ t => exact stage_Qbar_sym _ _ _ _

/-- the terminal stage: only the state block is replaced -/
theorem terminal_block (D : Data K) (s : Mem K) (i j : Nat) (h : i < D.nu D.N ∨ j < D.nu D.N)
    (hi : i < D.nux D.N) (hj : j < D.nux D.N) :
    lowerSym ((terminal D s).RSQ D.N) i j = lowerSym ((terminal D s).orig D.N) i j := by
  have h4 : ∀ i < D.nux D.N, ∀ j < D.nu D.N,
      (terminal D s).RSQ D.N i j = (terminal D s).orig D.N i j := by
    intro i hi j hj
    have hj' : j < D.nux D.N := by unfold Data.nux; omega
    simp only [terminal, Function.update_self]
    rw [if_neg (by omega), gecp, if_pos ⟨by omega, hj'⟩]
  unfold lowerSym
  split
  · next hji => exact h4 i hi j (by omega)
  · next hji => exact h4 j hj i (by omega)

theorem terminal_Qbar (D : Data K) (s : Mem K) (i j : Nat) (hi : i < D.nx D.N) (hj : j < D.nx D.N) :
    (terminal D s).Qbar i j = lowerSym ((terminal D s).orig D.N) (D.nu D.N + i) (D.nu D.N + j)
      - lowerSym ((terminal D s).RSQ D.N) (D.nu D.N + i) (D.nu D.N + j) := by
  have key : ∀ i < D.nx D.N, ∀ j < D.nx D.N,
      rowin (D.nux D.N) (s.rq D.N) (D.nux D.N) (s.RSQ D.N) (D.nu D.N + i) (D.nu D.N + j)
        - (if i = j then D.delta else 0)
      = (terminal D s).orig D.N (D.nu D.N + i) (D.nu D.N + j)
        - (terminal D s).RSQ D.N (D.nu D.N + i) (D.nu D.N + j) := by
    intro i hi j hj
    simp only [terminal, Function.update_self]
    have h1 : D.nu D.N + i < D.nux D.N := by unfold Data.nux; omega
    have h2 : D.nu D.N + j < D.nux D.N := by unfold Data.nux; omega
    have h3 : D.nu D.N ≤ D.nu D.N + i ∧ D.nu D.N + i < D.nu D.N + D.nx D.N ∧
        D.nu D.N ≤ D.nu D.N + j ∧ D.nu D.N + j < D.nu D.N + D.nx D.N := by omega
    rw [gecp, if_pos (show D.nu D.N + i < D.nux D.N + 1 ∧ D.nu D.N + j < D.nux D.N from
      ⟨by omega, h2⟩), if_pos h3]
    simp only [Nat.add_sub_cancel_left]
  have e : (terminal D s).Qbar i j = lowerSym (fun i j =>
      (terminal D s).orig D.N (D.nu D.N + i) (D.nu D.N + j)
        - (terminal D s).RSQ D.N (D.nu D.N + i) (D.nu D.N + j)) i j := by
    have e0 : (terminal D s).Qbar i j = lowerSym (fun i j =>
        if i < D.nx D.N ∧ j < D.nx D.N then
          (if i < D.nx D.N ∧ j < D.nx D.N then
            rowin (D.nux D.N) (s.rq D.N) (D.nux D.N) (s.RSQ D.N) (D.nu D.N + i) (D.nu D.N + j)
            else s.Qbar i j) - (if i = j then D.delta else 0)
        else (if i < D.nx D.N ∧ j < D.nx D.N then
            rowin (D.nux D.N) (s.rq D.N) (D.nux D.N) (s.RSQ D.N) (D.nu D.N + i) (D.nu D.N + j)
            else s.Qbar i j)) i j := by
      rw [← trtrL_lowerSym _ _ _ _ hi hj]; rfl
    rw [e0]
    refine lowerSym_congr (D.nx D.N) _ _ ?_ i hi j hj
    intro i hi j hji
    rw [if_pos ⟨hi, by omega⟩, if_pos ⟨hi, by omega⟩]
    exact key i hi j (by omega)
  rw [e]
  unfold lowerSym
  by_cases h : j ≤ i
  · simp only [h, if_true, Nat.add_le_add_iff_left]
  · simp only [h, if_false, Nat.add_le_add_iff_left]

theorem terminal_orig_row (D : Data K) (s : Mem K) (j : Nat) (hj : j < D.nux D.N) :
    (terminal D s).orig D.N (D.nux D.N) j = s.rq D.N j := by
  simp only [terminal, Function.update_self]
  rw [gecp, if_pos ⟨by omega, hj⟩, rowin, if_pos ⟨rfl, hj⟩]

theorem terminal_orig_block (D : Data K) (s : Mem K) (i j : Nat) (hi : i < D.nux D.N)
    (hj : j < D.nux D.N) : (terminal D s).orig D.N i j = s.RSQ D.N i j := by
  simp only [terminal, Function.update_self]
  rw [gecp, if_pos ⟨by omega, hj⟩, rowin, if_neg (by omega)]

end Acados.Conv
