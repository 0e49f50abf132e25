import Verif.Spec.ReducHess
import Verif.Props.Convexify
import Mathlib.LinearAlgebra.Matrix.ToLin
import Mathlib.LinearAlgebra.FiniteDimensional.Basic
import Mathlib.Tactic.FieldSimp
/-!
# Lemmas about the projection of the reduced Hessian
-/
namespace Acados.ReducHess
open Finset
open Acados.Reg (lowerSym EigFn trtrL reconstruct pack)
open Acados.Conv (quad_congr quad_add quad_block quad_congruence lowerSym_congr trtrL_lowerSym quad_gram)
set_option linter.unusedSectionVars false
variable {K : Type*} [Field K] [LinearOrder K] [IsStrictOrderedRing K]

theorem quad_vec_congr (A : Nat → Nat → K) (n : Nat) (x y : Nat → K) (h : ∀ c < n, x c = y c) :
    quad n A x = quad n A y := by
  unfold quad
  refine sum_congr rfl fun i hi => ?_
  rw [h i (mem_range.1 hi)]
  congr 1
  exact sum_congr rfl fun j hj => by rw [h j (mem_range.1 hj)]

/-- `[B A]ᵀ·P·[B A]` of a stage with successor, zero at the last stage -/
def GG (D : Data K) (ss : Nat) (P : Nat → Nat → K) : Nat → Nat → K := fun i j =>
  if ss = D.N then 0 else
    ∑ l ∈ range (D.nx (ss + 1)), D.BAbt ss i l * ∑ k ∈ range (D.nx (ss + 1)), D.BAbt ss j k * P l k

theorem GG_sym (D : Data K) (ss : Nat) (P : Nat → Nat → K) (hP : SymOn (D.nx (ss + 1)) P) (i j : Nat) :
    GG D ss P i j = GG D ss P j i := by
  unfold GG
  split
  · rfl
  simp only [mul_sum]
  rw [sum_comm]
  refine sum_congr rfl fun k hk => sum_congr rfl fun l hl => ?_
  rw [hP l (mem_range.1 hl) k (mem_range.1 hk)]; ring

theorem quad_GG (D : Data K) (ss : Nat) (h : ss ≠ D.N) (P : Nat → Nat → K) (z : Nat → K) :
    quad (D.nux ss) (GG D ss P) z
      = quad (D.nx (ss + 1)) P (fun l => ∑ r ∈ range (D.nux ss), D.BAbt ss r l * z r) := by
  unfold GG
  simp only [if_neg h]
  exact quad_congruence _ _ _ _ _

/-- successor `P` symmetric, or there is no successor -/
def PSym (D : Data K) (ss : Nat) (s : Mem K) : Prop := ss ≠ D.N → SymOn (D.nx (ss + 1)) s.P

theorem GG_sym' (D : Data K) (ss : Nat) (s : Mem K) (hP : PSym D ss s) (i j : Nat) :
    GG D ss s.P i j = GG D ss s.P j i := by
  by_cases h : ss = D.N
  · simp [GG, h]
  · exact GG_sym D ss s.P (hP h) i j

theorem stL_low (D : Data K) (ss : Nat) (s : Mem K) (hP : PSym D ss s) (i j : Nat) (hij : j ≤ i) :
    stL D ss s i j = s.RSQ ss i j + GG D ss s.P i j := by
  unfold stL trtrL
  rw [if_neg (by omega)]
  unfold GG stAL
  beta_reduce
  by_cases h : ss = D.N
  · rw [if_pos h, if_pos h, add_zero]
  · rw [if_neg h, if_neg h]
    simp only [sum_mul, mul_sum]
    rw [sum_comm]
    refine congrArg _ (sum_congr rfl fun k hk => sum_congr rfl fun l hl => ?_)
    rw [hP h l (mem_range.1 hl) k (mem_range.1 hk)]; ring

theorem stL_sym (D : Data K) (ss : Nat) (s : Mem K) : SymOn (D.nux ss) (stL D ss s) :=
  Reg.trtrL_sym _ _

theorem stL_eq (D : Data K) (ss : Nat) (s : Mem K) (hP : PSym D ss s) (i j : Nat)
    (hi : i < D.nux ss) (hj : j < D.nux ss) :
    stL D ss s i j = lowerSym (s.RSQ ss) i j + GG D ss s.P i j := by
  unfold lowerSym
  split
  · next h => exact stL_low D ss s hP i j h
  · next h =>
    rw [stL_sym D ss s i hi j hj, stL_low D ss s hP j i (by omega), GG_sym' D ss s hP]

theorem eig_dec (E : Ext K) (hE : EigAll E.eig) (n : Nat) (L : Nat → Nat → K) (hL : SymOn n L) :
    EigOk n L (stEig E n L).1 (stEig E n L).2 := by
  have h := hE n fun i j => L j i
  refine ⟨h.rows, h.cols, fun i hi j hj => ?_⟩
  have := h.dec i hi j hj
  refine Eq.trans ?_ this
  unfold lowerSym
  split
  · exact hL i hi j hj
  · rfl

theorem corr_ge (o : Opts K) (d : Nat → K) (j : Nat) : min o.thrEig o.minEig ≤ d j + corr o d j := by
  unfold corr
  split
  · have := min_le_right o.thrEig o.minEig; linarith
  · next h => have := min_le_left o.thrEig o.minEig; push Not at h; linarith

/-- the corrected matrix has no curvature below `min thr_eig min_eig` -/
theorem corrected_ge (E : Ext K) (o : Opts K) (hE : EigAll E.eig) (n : Nat) (L : Nat → Nat → K)
    (hL : SymOn n L) :
    QuadGe n (fun i j => L i j + stRec E o n L i j) (min o.thrEig o.minEig) := by
  have h := eig_dec E hE n L hL
  refine Reg.quad_ge_of_dec n _ _ (fun k => (stEig E n L).2 k + corr o (stEig E n L).2 k) _ h.rows
    (fun i hi j hj => ?_) fun k _ => corr_ge o _ k
  unfold stRec
  rw [Reg.reconstruct_eq, h.dec i hi j hj, ← sum_add_distrib]
  exact sum_congr rfl fun k _ => by ring

theorem stReg_false (E : Ext K) (o : Opts K) (n : Nat) (L : Nat → Nat → K) :
    stReg E o n L = false ↔ ∀ k < n, o.thrEig ≤ (stEig E n L).2 k := by
  unfold stReg
  rw [List.any_eq_false]
  simp

theorem corr_zero (E : Ext K) (o : Opts K) (n : Nat) (L : Nat → Nat → K)
    (h : ∀ k < n, o.thrEig ≤ (stEig E n L).2 k) (i j : Nat) : stRec E o n L i j = 0 := by
  unfold stRec
  rw [Reg.reconstruct_eq]
  refine sum_eq_zero fun k hk => ?_
  unfold corr
  rw [if_neg (not_lt.2 (h k (mem_range.1 hk)))]; ring

/-! ### one stage -/

section stage
variable (E : Ext K) (o : Opts K) (D : Data K) (ss : Nat) (s : Mem K)

/-- correction of the `R` block that is applied to the Hessian and to `L` -/
theorem stPk_uu (i j : Nat) (hi : i < D.nu ss) (hj : j < D.nu ss)
    (hr : stReg E o (D.nu ss) (stL D ss s) = true) :
    stPk E o D ss s i j = stRec E o (D.nu ss) (stL D ss s) i j := by
  unfold stPk pack
  rw [if_pos hr, if_pos ⟨hi, hj⟩]
  exact Reg.reconstruct_sym _ _ _ _ _

theorem stRec_noreg (hr : stReg E o (D.nu ss) (stL D ss s) = false) (i j : Nat) :
    stRec E o (D.nu ss) (stL D ss s) i j = 0 :=
  corr_zero E o _ _ ((stReg_false E o _ _).1 hr) i j

theorem stH1_eq (i j : Nat) : stH1 E o D ss s i j
    = s.RSQ ss i j + (if i < D.nu ss ∧ j < D.nu ss then stRec E o (D.nu ss) (stL D ss s) i j else 0) := by
  unfold stH1
  cases hr : stReg E o (D.nu ss) (stL D ss s)
  · simp only [Bool.false_eq_true, if_false]
    split
    · rw [stRec_noreg E o D ss s hr, add_zero]
    · rw [add_zero]
  · simp only [if_true, gead, Nat.zero_le, true_and, Nat.zero_add, Nat.sub_zero]
    split
    · next h => rw [stPk_uu E o D ss s i j h.1 h.2 hr, one_mul]
    · rw [add_zero]

theorem stL1_eq (i j : Nat) : stL1 E o D ss s i j
    = stL D ss s i j + (if i < D.nu ss ∧ j < D.nu ss then stRec E o (D.nu ss) (stL D ss s) i j else 0) := by
  unfold stL1
  cases hr : stReg E o (D.nu ss) (stL D ss s)
  · simp only [Bool.false_eq_true, if_false]
    split
    · rw [stRec_noreg E o D ss s hr, add_zero]
    · rw [add_zero]
  · simp only [if_true, gead, Nat.zero_le, true_and, Nat.zero_add, Nat.sub_zero]
    split
    · next h => rw [stPk_uu E o D ss s i j h.1 h.2 hr, one_mul]
    · rw [add_zero]

theorem stL1_sym : SymOn (D.nux ss) (stL1 E o D ss s) := by
  intro i hi j hj
  rw [stL1_eq, stL1_eq, stL_sym D ss s i hi j hj]
  congr 1
  by_cases h : i < D.nu ss ∧ j < D.nu ss
  · rw [if_pos h, if_pos ⟨h.2, h.1⟩]; exact Reg.reconstruct_sym _ _ _ _ _
  · rw [if_neg h, if_neg (fun h' => h ⟨h'.2, h'.1⟩)]

theorem lowerSym_of_sym (n : Nat) (A : Nat → Nat → K) (h : SymOn n A) (i j : Nat) (hi : i < n)
    (hj : j < n) : lowerSym A i j = A i j := by
  unfold lowerSym; split
  · rfl
  · exact h j hj i hi

theorem stL1_pd (hE : EigAll E.eig) :
    QuadGe (D.nu ss) (lowerSym (stL1 E o D ss s)) (min o.thrEig o.minEig) := by
  intro z
  have hs : SymOn (D.nu ss) (stL D ss s) := fun i hi j hj =>
    stL_sym D ss s i (by unfold Data.nux; omega) j (by unfold Data.nux; omega)
  refine le_trans (corrected_ge E o hE (D.nu ss) _ hs z) (le_of_eq ?_)
  refine quad_congr _ _ _ _ fun i hi j hj => ?_
  rw [lowerSym_of_sym (D.nux ss) _ (stL1_sym E o D ss s) i j (by unfold Data.nux; omega)
    (by unfold Data.nux; omega), stL1_eq, if_pos ⟨hi, hj⟩]

/-- the factor of the stage -/
def fac : Nat → Nat → K := E.potrf (D.nux ss) (D.nu ss) (stL1 E o D ss s)

/-- `|Fᵀ z|²`: the completed square of the stage -/
def square (z : Nat → K) : K :=
  ∑ k ∈ range (D.nu ss), (∑ i ∈ range (D.nux ss), fac E o D ss s i k * z i) ^ 2

theorem fac_eq (ho : 0 < min o.thrEig o.minEig) (hE : EigAll E.eig) (hF : PotrfOk E.potrf)
    (i j : Nat) (hi : i < D.nux ss) (hj : j < D.nu ss) (hij : j ≤ i) :
    ∑ k ∈ range (D.nu ss), fac E o D ss s i k * fac E o D ss s j k = stL1 E o D ss s i j :=
  hF (D.nux ss) (D.nu ss) (stL1 E o D ss s) ⟨_, ho, stL1_pd E o D ss s hE⟩ i hi j hj hij

theorem stL2_eq (i j : Nat) (hi : i < D.nux ss) (hj : D.nu ss ≤ j) (hij : j ≤ i) :
    stL2 E o D ss s i j = -∑ k ∈ range (D.nu ss), fac E o D ss s i k * fac E o D ss s j k := by
  unfold stL2
  rw [if_pos ⟨hj, hij, hi⟩]
  congr 1
  refine sum_congr rfl fun k hk => ?_
  have := mem_range.1 hk
  unfold stF fac
  rw [if_pos ⟨hi, this⟩, if_pos ⟨by omega, this⟩]

theorem stH2_left (i j : Nat) (hj : j < D.nu ss) : stH2 E o D ss s i j = stH1 E o D ss s i j := by
  unfold stH2 gead
  split
  · beta_reduce
    rw [if_neg (by omega), if_neg (by omega)]
  · rfl

theorem stH2_tail (i j : Nat) (hi : i < D.nux ss) (hj : j < D.nux ss) (h1 : D.nu ss ≤ i)
    (h2 : D.nu ss ≤ j) : stH2 E o D ss s i j = stH1 E o D ss s i j
      + if stReg E o (D.nu ss) (stL D ss s) then stSchur o D ss s i j - stL2 E o D ss s i j else 0 := by
  unfold Data.nux at hi hj
  unfold stH2 gead tail
  split
  · beta_reduce
    rw [if_pos ⟨h1, hi, h2, hj⟩, if_pos ⟨h1, hi, h2, hj⟩, Nat.add_sub_cancel' h1, Nat.add_sub_cancel' h2]
    ring
  · rw [add_zero]

theorem stP_low (a b : Nat) (ha : a < D.nx ss) (hb : b ≤ a) : stP E o D ss s a b
    = stL1 E o D ss s (D.nu ss + a) (D.nu ss + b)
      + if stReg E o (D.nu ss) (stL D ss s) then stSchur o D ss s (D.nu ss + a) (D.nu ss + b)
        else stL2 E o D ss s (D.nu ss + a) (D.nu ss + b) := by
  have hb' : b < D.nx ss := by omega
  unfold stP
  rw [Reg.trtrL_eq _ _ _ _ ha hb', if_pos hb]
  unfold gead tail
  split
  · beta_reduce
    rw [if_pos ⟨by omega, by omega, by omega, by omega⟩, if_pos ⟨ha, hb'⟩, one_mul]; rfl
  · beta_reduce
    rw [if_pos ⟨by omega, by omega, by omega, by omega⟩, if_pos ⟨ha, hb'⟩, one_mul]; rfl

/-- lower triangle of the stage identity `H' + [B A]ᵀP[B A] = F Fᵀ + diag(0, P_new)` -/
theorem stage_low (ho : 0 < min o.thrEig o.minEig) (hE : EigAll E.eig) (hF : PotrfOk E.potrf)
    (hP : PSym D ss s) (i j : Nat) (hi : i < D.nux ss) (hij : j ≤ i) :
    stH2 E o D ss s i j + GG D ss s.P i j
      = ∑ k ∈ range (D.nu ss), fac E o D ss s i k * fac E o D ss s j k
        + if D.nu ss ≤ i ∧ D.nu ss ≤ j then stP E o D ss s (i - D.nu ss) (j - D.nu ss) else 0 := by
  have hL := stL_low D ss s hP i j hij
  by_cases hj : j < D.nu ss
  · rw [stH2_left E o D ss s i j hj, fac_eq E o D ss s ho hE hF i j hi hj hij, if_neg (by omega),
      stH1_eq, stL1_eq, hL]
    ring
  · push Not at hj
    have hin : i < D.nu ss + D.nx ss := hi
    rw [if_pos ⟨by omega, hj⟩]
    have e1 := stL1_eq E o D ss s i j
    rw [if_neg (by omega), add_zero, hL] at e1
    have e2 := stH1_eq E o D ss s i j
    rw [if_neg (by omega), add_zero] at e2
    have e3 := stL2_eq E o D ss s i j hi hj hij
    have a1 : D.nu ss + (i - D.nu ss) = i := by omega
    have a2 : D.nu ss + (j - D.nu ss) = j := by omega
    rw [stH2_tail E o D ss s i j hi (by omega) (by omega) hj,
      stP_low E o D ss s _ _ (by omega) (by omega), a1, a2, e1, e2, e3]
    split <;> ring

theorem stP_sym : SymOn (D.nx ss) (stP E o D ss s) := by
  unfold stP
  exact Reg.trtrL_sym _ _

/-- the stage identity as quadratic forms -/
theorem stage_quad (ho : 0 < min o.thrEig o.minEig) (hE : EigAll E.eig) (hF : PotrfOk E.potrf)
    (hP : PSym D ss s) (z : Nat → K) :
    quad (D.nux ss) (lowerSym (stH2 E o D ss s)) z + quad (D.nux ss) (GG D ss s.P) z
      = square E o D ss s z + quad (D.nx ss) (stP E o D ss s) (fun c => z (D.nu ss + c)) := by
  rw [← quad_add]
  let M : Nat → Nat → K := fun i j =>
    if D.nu ss ≤ i ∧ D.nu ss ≤ j then stP E o D ss s (i - D.nu ss) (j - D.nu ss) else 0
  have key : ∀ i < D.nux ss, ∀ j < D.nux ss,
      lowerSym (stH2 E o D ss s) i j + GG D ss s.P i j
        = (∑ k ∈ range (D.nu ss), fac E o D ss s i k * fac E o D ss s j k) + M i j := by
    intro i hi j hj
    unfold lowerSym
    split
    · next h => exact stage_low E o D ss s ho hE hF hP i j hi h
    · next h =>
      rw [GG_sym' D ss s hP i j, stage_low E o D ss s ho hE hF hP j i hj (by omega)]
      congr 1
      · exact sum_congr rfl fun k _ => by ring
      · simp only [M]
        by_cases hc : D.nu ss ≤ i ∧ D.nu ss ≤ j
        · rw [if_pos hc, if_pos ⟨hc.2, hc.1⟩]
          unfold Data.nux at hi hj
          exact stP_sym E o D ss s _ (by omega) _ (by omega)
        · rw [if_neg hc, if_neg (fun h => hc ⟨h.2, h.1⟩)]
  rw [quad_congr _ _ _ z key, quad_add, quad_gram]
  congr 1
  refine (quad_block (D.nu ss) (D.nx ss) M z fun i _ j _ h => ?_).trans ?_
  · simp only [M]; rw [if_neg (by omega)]
  · refine quad_congr _ _ _ _ fun i _ j _ => ?_
    simp only [M]
    rw [if_pos ⟨by omega, by omega⟩, Nat.add_sub_cancel_left, Nat.add_sub_cancel_left]

/-- with vanishing state part the completed square controls the controls -/
theorem square_ge (ho : 0 < min o.thrEig o.minEig) (hE : EigAll E.eig) (hF : PotrfOk E.potrf)
    (z : Nat → K) (hz : ∀ c < D.nx ss, z (D.nu ss + c) = 0) :
    min o.thrEig o.minEig * sqn (D.nu ss) z ≤ square E o D ss s z := by
  refine le_trans (stL1_pd E o D ss s hE z) (le_of_eq ?_)
  have e : ∀ k, ∑ i ∈ range (D.nux ss), fac E o D ss s i k * z i
      = ∑ i ∈ range (D.nu ss), fac E o D ss s i k * z i := by
    intro k
    unfold Data.nux
    rw [sum_range_add, add_eq_left]
    refine sum_eq_zero fun c hc => ?_
    rw [hz c (mem_range.1 hc), mul_zero]
  unfold square
  rw [sum_congr rfl fun k _ => by rw [e k], ← quad_gram]
  refine quad_congr _ _ _ _ fun i hi j hj => ?_
  unfold lowerSym
  have hn : D.nu ss ≤ D.nux ss := by unfold Data.nux; omega
  split
  · next h => exact (fac_eq E o D ss s ho hE hF i j (by omega) hj h).symm
  · next h =>
    rw [← fac_eq E o D ss s ho hE hF j i (by omega) hi (by omega)]
    exact sum_congr rfl fun k _ => by ring

/-- for every state there is a control that makes the completed square vanish -/
theorem exists_feedback (ho : 0 < min o.thrEig o.minEig) (hE : EigAll E.eig) (hF : PotrfOk E.potrf)
    (x : Nat → K) : ∃ u : Nat → K,
      square E o D ss s (fun j => if j < D.nu ss then u j else x (j - D.nu ss)) = 0 := by
  let A : Matrix (Fin (D.nu ss)) (Fin (D.nu ss)) K := fun k i => fac E o D ss s i k
  have hinj : Function.Injective A.mulVecLin := by
    rw [injective_iff_map_eq_zero]
    intro v hv
    let z : Nat → K := fun j => if h : j < D.nu ss then v ⟨j, h⟩ else 0
    have h0 : square E o D ss s z = 0 := by
      unfold square
      refine sum_eq_zero fun k hk => ?_
      have hv' := congrFun hv ⟨k, mem_range.1 hk⟩
      simp only [Matrix.mulVecLin_apply, Matrix.mulVec, dotProduct, Pi.zero_apply] at hv'
      have : ∑ i ∈ range (D.nux ss), fac E o D ss s i k * z i = 0 := by
        unfold Data.nux
        rw [sum_range_add]
        have h2 : ∑ i ∈ range (D.nx ss), fac E o D ss s (D.nu ss + i) k * z (D.nu ss + i) = 0 :=
          sum_eq_zero fun i _ => by simp only [z]; rw [dif_neg (by omega), mul_zero]
        rw [h2, add_zero, ← hv', Finset.sum_range]
        refine sum_congr rfl fun i _ => ?_
        simp only [z, A]
        rw [dif_pos i.2]
      rw [this]; ring
    have h1 := square_ge E o D ss s ho hE hF z fun c _ => by simp only [z]; rw [dif_neg (by omega)]
    rw [h0] at h1
    have hs : 0 ≤ sqn (D.nu ss) z := sum_nonneg fun _ _ => sq_nonneg _
    have hs0 : sqn (D.nu ss) z = 0 := by
      by_contra hne
      have := mul_pos ho (lt_of_le_of_ne hs (Ne.symm hne))
      linarith
    funext i
    have := (sum_eq_zero_iff_of_nonneg fun j _ => sq_nonneg (z j)).1 hs0 i (mem_range.2 i.2)
    have := pow_eq_zero_iff (two_ne_zero) |>.1 this
    simpa [z] using this
  have hsurj := LinearMap.injective_iff_surjective.1 hinj
  obtain ⟨v, hv⟩ := hsurj fun k => -∑ c ∈ range (D.nx ss), fac E o D ss s (D.nu ss + c) k * x c
  refine ⟨fun j => if h : j < D.nu ss then v ⟨j, h⟩ else 0, ?_⟩
  unfold square
  refine sum_eq_zero fun k hk => ?_
  have hv' := congrFun hv ⟨k, mem_range.1 hk⟩
  simp only [Matrix.mulVecLin_apply, Matrix.mulVec, dotProduct] at hv'
  have e : ∀ f : Nat → K, ∑ i ∈ range (D.nux ss), f i
      = ∑ i ∈ range (D.nu ss), f i + ∑ c ∈ range (D.nx ss), f (D.nu ss + c) := fun f => by
    unfold Data.nux; rw [sum_range_add]
  rw [e]
  have h2 : ∑ c ∈ range (D.nx ss), fac E o D ss s (D.nu ss + c) k *
      (if D.nu ss + c < D.nu ss then (if h : D.nu ss + c < D.nu ss then v ⟨D.nu ss + c, h⟩ else 0)
        else x (D.nu ss + c - D.nu ss))
      = ∑ c ∈ range (D.nx ss), fac E o D ss s (D.nu ss + c) k * x c :=
    sum_congr rfl fun c _ => by rw [if_neg (by omega), Nat.add_sub_cancel_left]
  have h3 : ∑ i ∈ range (D.nu ss), fac E o D ss s i k *
      (if i < D.nu ss then (if h : i < D.nu ss then v ⟨i, h⟩ else 0) else x (i - D.nu ss))
      = ∑ i, A ⟨k, mem_range.1 hk⟩ i * v i := by
    rw [Finset.sum_range]
    refine sum_congr rfl fun i _ => ?_
    rw [if_pos i.2, dif_pos i.2]
  rw [h2, h3, hv']; ring

end stage

/-! ### elimination without pivoting -/

/-- the trailing block from index `j` on, as a symmetric matrix -/
def mk (j : Nat) (A : Nat → Nat → K) : Nat → Nat → K := fun i k =>
  if j ≤ i ∧ j ≤ k then lowerSym A i k else 0

theorem mk_comm (j : Nat) (A : Nat → Nat → K) (i k : Nat) : mk j A i k = mk j A k i := by
  unfold mk
  have : lowerSym A i k = lowerSym A k i := by
    unfold lowerSym
    rcases lt_trichotomy i k with h | h | h
    · rw [if_neg (by omega), if_pos (by omega)]
    · subst h; rfl
    · rw [if_pos (by omega), if_neg (by omega)]
  rw [this]
  by_cases hc : j ≤ i ∧ j ≤ k
  · rw [if_pos hc, if_pos ⟨hc.2, hc.1⟩]
  · rw [if_neg hc, if_neg (fun h => hc ⟨h.2, h.1⟩)]

/-- row of the completed square of column `j` -/
def row (j : Nat) (p : K) (A : Nat → Nat → K) : Nat → K := fun i =>
  if i < j then 0 else if i = j then 1 else A i j / p

theorem mk_elim (n j : Nat) (A : Nat → Nat → K) (hp : A j j ≠ 0) (i k : Nat) (hi : i < n) (hk : k < n) :
    mk j A i k = row j (A j j) A i * A j j * row j (A j j) A k + mk (j + 1) (elim n (A j j) j A) i k := by
  have low : ∀ i k, i < n → k ≤ i → mk j A i k
      = row j (A j j) A i * A j j * row j (A j j) A k + mk (j + 1) (elim n (A j j) j A) i k := by
    intro i k hi hk
    have r0 : ∀ i < j, row j (A j j) A i = 0 := fun i h => if_pos h
    have r1 : row j (A j j) A j = 1 := by unfold row; rw [if_neg (by omega), if_pos rfl]
    have r2 : ∀ i, j < i → row j (A j j) A i = A i j / A j j := fun i h => by
      unfold row; rw [if_neg (by omega), if_neg (by omega)]
    have m0 : ∀ B : Nat → Nat → K, ∀ q, k < q → mk q B i k = 0 := fun B q h => if_neg (by omega)
    have m1 : ∀ B : Nat → Nat → K, ∀ q, q ≤ k → mk q B i k = B i k := fun B q h => by
      unfold mk lowerSym; rw [if_pos ⟨by omega, h⟩, if_pos hk]
    rcases lt_trichotomy k j with h | h | h
    · rw [m0 _ _ h, m0 _ _ (by omega), r0 k h]; ring
    · subst h
      rw [m1 _ _ le_rfl, m0 _ _ (by omega), r1]
      rcases Nat.eq_or_lt_of_le hk with hik | hik
      · rw [← hik, r1]; ring
      · rw [r2 i hik]; field_simp; ring
    · rw [m1 _ _ h.le, m1 _ _ h, r2 i (by omega), r2 k h]
      unfold elim
      rw [if_pos ⟨by omega, hk, hi⟩]
      field_simp; ring
  rcases le_total k i with h | h
  · exact low i k hi h
  · have := low k i hk h
    rw [mk_comm, mk_comm (j + 1), this]; ring

theorem quad_rank1 (n : Nat) (r : Nat → K) (p : K) (B : Nat → Nat → K) (z : Nat → K) :
    quad n (fun i k => r i * p * r k + B i k) z = p * (∑ i ∈ range n, r i * z i) ^ 2 + quad n B z := by
  rw [quad_add]
  congr 1
  unfold quad
  have : ∀ i ∈ range n, z i * ∑ j ∈ range n, r i * p * r j * z j
      = p * (r i * z i) * ∑ j ∈ range n, r j * z j := by
    intro i _
    rw [mul_sum, mul_sum]
    exact sum_congr rfl fun j _ => by ring
  rw [sum_congr rfl this, ← sum_mul, ← mul_sum]; ring

theorem elimAt_succ (o : Opts K) (n u : Nat) (A : Nat → Nat → K) (j : Nat) :
    elimAt o n u A (j + 1) = elimStep o n u (elimAt o n u A j) j := by
  unfold elimAt
  rw [List.range_succ, List.foldl_append]; rfl

theorem guard_id (o : Opts K) (p : K) (h : o.minPivot ≤ |p|) : guardPivot o p = p := by
  unfold guardPivot
  rw [if_neg]
  rintro ⟨h1, h2⟩
  exact absurd (abs_lt.2 ⟨h2, h1⟩) (not_lt.2 h)

theorem elim_quad (o : Opts K) (n u : Nat) (A : Nat → Nat → K) (hpv : o.pivoting = false)
    (hm : 0 < o.minPivot) (hg : ∀ j < u, o.minPivot ≤ |elimAt o n u A j j j|) (t : Nat) (ht : t ≤ u)
    (z : Nat → K) :
    quad n (lowerSym A) z
      = ∑ j ∈ range t, elimAt o n u A j j j
          * (∑ i ∈ range n, row j (elimAt o n u A j j j) (elimAt o n u A j) i * z i) ^ 2
        + quad n (mk t (elimAt o n u A t)) z := by
  induction t with
  | zero =>
    rw [range_zero, sum_empty, zero_add]
    exact quad_congr _ _ _ _ fun i _ j _ => by unfold mk; rw [if_pos ⟨by omega, by omega⟩]; rfl
  | succ t ih =>
    rw [ih (by omega), sum_range_succ, add_assoc]
    congr 1
    have hp : elimAt o n u A t t t ≠ 0 := by
      intro h0
      have := hg t (by omega)
      rw [h0, abs_zero] at this
      linarith
    rw [quad_congr _ _ _ z fun i hi k hk => mk_elim n t (elimAt o n u A t) hp i k hi hk, quad_rank1]
    congr 2
    rw [elimAt_succ]
    unfold elimStep
    simp only [hpv, Bool.false_eq_true, if_false]
    rw [guard_id o _ (hg t (by omega))]

/-- for every state there is a control that makes all rows vanish -/
theorem exists_rows (u n : Nat) (hu : u ≤ n) (ℓ : Nat → Nat → K)
    (h0 : ∀ j < u, ∀ i < j, ℓ j i = 0) (h1 : ∀ j < u, ℓ j j = 1) (x : Nat → K) :
    ∃ v : Nat → K, (∀ i, u ≤ i → v i = x i) ∧ ∀ j < u, ∑ i ∈ range n, ℓ j i * v i = 0 := by
  -- back substitution: zero the rows t … u-1
  have : ∀ d ≤ u, ∃ v : Nat → K, (∀ i, u ≤ i → v i = x i) ∧
      ∀ j < u, u ≤ j + d → ∑ i ∈ range n, ℓ j i * v i = 0 := by
    intro d
    induction d with
    | zero => exact fun _ => ⟨x, fun _ _ => rfl, fun j hj h => by omega⟩
    | succ d ih =>
      intro hd
      obtain ⟨v, hv, hz⟩ := ih (by omega)
      let t := u - (d + 1)
      have ht : t < u := by simp only [t]; omega
      refine ⟨fun i => if i = t then v t - ∑ i ∈ range n, ℓ t i * v i else v i, fun i hi => ?_,
        fun j hj hjd => ?_⟩
      · beta_reduce
        rw [if_neg (by omega)]; exact hv i hi
      · have e : ∑ i ∈ range n, ℓ j i * (if i = t then v t - ∑ i ∈ range n, ℓ t i * v i else v i)
            = ∑ i ∈ range n, ℓ j i * v i - ℓ j t * ∑ i ∈ range n, ℓ t i * v i := by
          have : ∀ i ∈ range n, ℓ j i * (if i = t then v t - ∑ i ∈ range n, ℓ t i * v i else v i)
              = ℓ j i * v i - if i = t then ℓ j t * ∑ i ∈ range n, ℓ t i * v i else 0 := by
            intro i _
            split
            · next h => subst h; ring
            · ring
          rw [sum_congr rfl this, sum_sub_distrib, sum_ite_eq', if_pos (mem_range.2 (by omega))]
        rw [e]
        by_cases hjt : j = t
        · subst hjt
          rw [h1 _ hj]; ring
        · rw [hz j hj (by simp only [t] at hjt; omega), h0 j hj t (by simp only [t]; simp only [t] at hjt; omega)]
          ring
  obtain ⟨v, hv, hz⟩ := this u le_rfl
  exact ⟨v, hv, fun j hj => hz j hj (by omega)⟩

/-- completed squares of the matrix `L` before its correction, with the same `P` -/
structure Orig (E : Ext K) (o : Opts K) (D : Data K) (ss : Nat) (s : Mem K) where
  p : Nat → K
  ℓ : Nat → Nat → K
  id : ∀ z, quad (D.nux ss) (stL D ss s) z
      = ∑ k ∈ range (D.nu ss), p k * (∑ i ∈ range (D.nux ss), ℓ k i * z i) ^ 2
        + quad (D.nx ss) (stP E o D ss s) (fun c => z (D.nu ss + c))
  fb : ∀ x : Nat → K, ∃ v : Nat → K, (∀ c < D.nx ss, v (D.nu ss + c) = x c) ∧
      ∀ k < D.nu ss, ∑ i ∈ range (D.nux ss), ℓ k i * v i = 0

theorem exists_orig (E : Ext K) (o : Opts K) (D : Data K) (ss : Nat) (s : Mem K)
    (ho : 0 < min o.thrEig o.minEig) (hE : EigAll E.eig) (hF : PotrfOk E.potrf) (hP : PSym D ss s)
    (hpv : o.pivoting = false) (hm : 0 < o.minPivot) (hg : GoodPivots o D ss s) :
    Nonempty (Orig E o D ss s) := by
  cases hr : stReg E o (D.nu ss) (stL D ss s)
  · -- no correction: the Cholesky factor
    refine ⟨⟨fun _ => 1, fun k i => fac E o D ss s i k, fun z => ?_, fun x => ?_⟩⟩
    · have h := stage_quad E o D ss s ho hE hF hP z
      have e : stH2 E o D ss s = s.RSQ ss := by
        unfold stH2 stH1; simp only [hr, Bool.false_eq_true, if_false]
      rw [e, ← quad_add] at h
      rw [quad_congr _ _ _ z fun i hi j hj => stL_eq D ss s hP i j hi hj, h]
      unfold square
      simp only [one_mul]
    · obtain ⟨u, hu⟩ := exists_feedback E o D ss s ho hE hF x
      refine ⟨fun j => if j < D.nu ss then u j else x (j - D.nu ss), fun c _ => ?_, fun k hk => ?_⟩
      rotate_left
      · exact pow_eq_zero_iff two_ne_zero |>.1
          ((sum_eq_zero_iff_of_nonneg fun j _ => sq_nonneg _).1 hu k (mem_range.2 hk))
      · beta_reduce
        rw [if_neg (by omega), Nat.add_sub_cancel_left]
  · let A := fun j => elimAt o (D.nux ss) (D.nu ss) (stL3 D ss s) j
    have hnn : D.nu ss ≤ D.nux ss := by unfold Data.nux; omega
    refine ⟨⟨fun j => A j j j, fun j => row j (A j j j) (A j), fun z => ?_, fun x => ?_⟩⟩
    · have h := elim_quad o (D.nux ss) (D.nu ss) (stL3 D ss s) hpv hm hg (D.nu ss) le_rfl z
      -- L = lowerSym L3 + trailing block
      let T : Nat → Nat → K := fun i j => if D.nu ss ≤ i ∧ D.nu ss ≤ j then stL D ss s i j else 0
      have e1 : quad (D.nux ss) (stL D ss s) z
          = quad (D.nux ss) (lowerSym (stL3 D ss s)) z + quad (D.nux ss) T z := by
        rw [← quad_add]
        refine quad_congr _ _ _ _ fun i hi j hj => ?_
        unfold lowerSym stL3
        simp only [T]
        by_cases hij : j ≤ i
        · rw [if_pos hij]
          by_cases hju : j < D.nu ss
          · rw [if_pos hju, if_neg (by omega), add_zero]
          · rw [if_neg hju, if_pos ⟨by omega, by omega⟩, zero_add]
        · rw [if_neg hij]
          by_cases hiu : i < D.nu ss
          · rw [if_pos hiu, if_neg (by omega), add_zero]; exact stL_sym D ss s i hi j hj
          · rw [if_neg hiu, if_pos ⟨by omega, by omega⟩, zero_add]
      rw [e1, h, add_assoc]
      congr 1
      rw [← quad_add]
      refine (quad_block (D.nu ss) (D.nx ss) _ z fun i _ j _ hc => ?_).trans ?_
      · simp only [mk, T]; rw [if_neg (by omega), if_neg (by omega), add_zero]
      refine quad_congr _ _ _ _ fun i hi j hj => ?_
      have low : ∀ i < D.nx ss, ∀ j ≤ i,
          mk (D.nu ss) (elimAt o (D.nux ss) (D.nu ss) (stL3 D ss s) (D.nu ss)) (D.nu ss + i) (D.nu ss + j)
            + T (D.nu ss + i) (D.nu ss + j) = stP E o D ss s i j := by
        intro i hi j hij
        rw [stP_low E o D ss s i j hi hij, stL1_eq, if_neg (by omega), add_zero, if_pos hr]
        simp only [mk, T, lowerSym]
        rw [if_pos ⟨by omega, by omega⟩, if_pos (by omega), if_pos ⟨by omega, by omega⟩]
        exact add_comm _ _
      rcases le_total j i with hij | hij
      · exact low i hi j hij
      · rw [stP_sym E o D ss s i hi j hj, ← low j hj i hij]
        congr 1
        · exact mk_comm _ _ _ _
        · simp only [T]
          rw [if_pos ⟨by omega, by omega⟩, if_pos ⟨by omega, by omega⟩]
          exact stL_sym D ss s _ (by unfold Data.nux; omega) _ (by unfold Data.nux; omega)
    · obtain ⟨v, hv, hz⟩ := exists_rows (D.nu ss) (D.nux ss) hnn (fun j => row j (A j j j) (A j))
        (fun j _ i hi => by unfold row; rw [if_pos hi])
        (fun j _ => by unfold row; rw [if_neg (by omega), if_pos rfl])
        (fun i => x (i - D.nu ss))
      exact ⟨v, fun c _ => by rw [hv _ (by omega), Nat.add_sub_cancel_left], hz⟩

/-! ### the loop -/

section loop
variable (E : Ext K) (o : Opts K) (D : Data K) (s : Mem K)

theorem run_succ (t : Nat) : run E o D s (t + 1) = stage E o D (run E o D s t) (D.N - t) := by
  unfold run
  rw [List.range_succ, List.foldl_append]
  rfl

theorem pre_step (i : Nat) (hi : i < D.N) :
    pre E o D s i = stage E o D (pre E o D s (i + 1)) (i + 1) := by
  unfold pre
  have : D.N - i = (D.N - (i + 1)) + 1 := by omega
  rw [this, run_succ]
  congr 1
  omega

theorem run_RSQ_keep (t i : Nat) (h : i + t ≤ D.N) : (run E o D s t).RSQ i = s.RSQ i := by
  induction t with
  | zero => rfl
  | succ t ih =>
    rw [run_succ]
    simp only [stage]
    rw [Function.update_of_ne (by omega)]
    exact ih (by omega)

theorem pre_RSQ (i : Nat) (hi : i ≤ D.N) : (pre E o D s i).RSQ i = s.RSQ i :=
  run_RSQ_keep E o D s _ i (by omega)

theorem run_done (i : Nat) (hi : i ≤ D.N) (t : Nat) (ht : D.N - i < t) (htN : t ≤ D.N) :
    (run E o D s t).RSQ i = stH2 E o D i (pre E o D s i) := by
  induction t with
  | zero => omega
  | succ t ih =>
    rw [run_succ]
    simp only [stage]
    by_cases h : i = D.N - t
    · subst h
      rw [Function.update_self]
      unfold pre
      have : D.N - (D.N - t) = t := by omega
      rw [this]
    · rw [Function.update_of_ne h]
      exact ih (by omega) (by omega)

theorem final_RSQ (i : Nat) (h1 : 1 ≤ i) (hi : i ≤ D.N) :
    (regularize E o D s).RSQ i = stH2 E o D i (pre E o D s i) := by
  unfold regularize stage0
  simp only
  rw [Function.update_of_ne (by omega)]
  exact run_done E o D s i hi D.N (by omega) le_rfl

theorem final_RSQ0 : (regularize E o D s).RSQ 0 = fun i j =>
    s.RSQ 0 i j + if i < D.nux 0 ∧ j < D.nux 0 then stRec E o (D.nux 0) (stL D 0 (pre E o D s 0)) i j
      else 0 := by
  unfold regularize stage0
  simp only
  rw [Function.update_self]
  have e : (run E o D s D.N).RSQ 0 = s.RSQ 0 := run_RSQ_keep E o D s D.N 0 (by omega)
  funext i j
  simp only [gead, Nat.zero_le, true_and, Nat.zero_add, Nat.sub_zero, e]
  split
  · next h =>
    unfold pack
    rw [if_pos h, one_mul]
    congr 1
    exact Reg.reconstruct_sym _ _ _ _ _
  · rw [add_zero]

theorem final_RSQ_tail (i : Nat) (hi : D.N < i) : (regularize E o D s).RSQ i = s.RSQ i := by
  have : ∀ t, (run E o D s t).RSQ i = s.RSQ i := by
    intro t
    induction t with
    | zero => rfl
    | succ t ih =>
      rw [run_succ]; simp only [stage]; rw [Function.update_of_ne (by omega)]; exact ih
  unfold regularize stage0
  simp only
  rw [Function.update_of_ne (by omega), this]

theorem pre_P (i : Nat) (hi : i < D.N) :
    (pre E o D s i).P = stP E o D (i + 1) (pre E o D s (i + 1)) := by
  rw [pre_step E o D s i hi]; rfl

theorem pre_sym (i : Nat) (hi : i ≤ D.N) : PSym D i (pre E o D s i) := by
  intro h
  rw [pre_P E o D s i (by omega)]
  exact stP_sym E o D _ _

/-- completion of squares from stage `k` on -/
theorem tail_identity (ho : 0 < min o.thrEig o.minEig) (hE : EigAll E.eig) (hF : PotrfOk E.potrf)
    (z : Nat → Nat → K) (k : Nat) (hz : Traj D k z) (hk : k ≤ D.N) :
    ∑ i ∈ Ico k (D.N + 1), quad (D.nux i) (lowerSym (stH2 E o D i (pre E o D s i))) (z i)
      = ∑ i ∈ Ico k (D.N + 1), square E o D i (pre E o D s i) (z i)
        + quad (D.nx k) (stP E o D k (pre E o D s k)) (fun c => z k (D.nu k + c)) := by
  induction hk using Nat.decreasingInduction with
  | self =>
    have h := stage_quad E o D D.N (pre E o D s D.N) ho hE hF (pre_sym E o D s D.N le_rfl) (z D.N)
    have h0 : quad (D.nux D.N) (GG D D.N (pre E o D s D.N).P) (z D.N) = 0 := by
      unfold quad GG; simp
    rw [h0, add_zero] at h
    rw [Nat.Ico_succ_singleton, sum_singleton, sum_singleton, h]
  | of_succ k hk ih =>
    have h := stage_quad E o D k (pre E o D s k) ho hE hF (pre_sym E o D s k hk.le) (z k)
    rw [quad_GG D k (by omega), pre_P E o D s k hk] at h
    have hx : quad (D.nx (k + 1)) (stP E o D (k + 1) (pre E o D s (k + 1)))
        (fun l => ∑ r ∈ range (D.nux k), D.BAbt k r l * z k r)
        = quad (D.nx (k + 1)) (stP E o D (k + 1) (pre E o D s (k + 1)))
        (fun c => z (k + 1) (D.nu (k + 1) + c)) := by
      exact quad_vec_congr _ _ _ _ fun c hc => (hz k le_rfl hk c hc).symm
    rw [hx] at h
    have ih' := ih fun i hi hiN c hc => hz i (by omega) hiN c hc
    rw [sum_eq_sum_Ico_succ_bot (a := k) (b := D.N + 1) (by omega), ih',
      sum_eq_sum_Ico_succ_bot (a := k) (b := D.N + 1) (by omega)]
    linarith

end loop
end Acados.ReducHess
