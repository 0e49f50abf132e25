import Verif.Lemmas.ReducHess
/-!
# Property C78: projection of the reduced Hessian
-/
namespace Acados.ReducHess
open Finset
open Acados.Reg (lowerSym EigFn trtrL)
open Acados.Conv (quad_congr quad_add)
set_option linter.unusedSectionVars false
variable {K : Type*} [Field K] [LinearOrder K] [IsStrictOrderedRing K]

/-- completion of squares over the whole horizon -/
theorem total_identity (E : Ext K) (o : Opts K) (D : Data K) (s : Mem K) (hN : 1 ≤ D.N)
    (ho : 0 < min o.thrEig o.minEig) (hE : EigAll E.eig) (hF : PotrfOk E.potrf)
    (z : Nat → Nat → K) (hz : Traj D 0 z) :
    form D (regularize E o D s).RSQ 0 z
      = quad (D.nux 0) (fun i j => stL D 0 (pre E o D s 0) i j
          + stRec E o (D.nux 0) (stL D 0 (pre E o D s 0)) i j) (z 0)
        + ∑ i ∈ Ico 1 (D.N + 1), square E o D i (pre E o D s i) (z i) := by
  unfold form
  rw [sum_eq_sum_Ico_succ_bot (by omega)]
  have ht := tail_identity E o D s ho hE hF z 1 (fun i _ hi c hc => hz i (by omega) hi c hc) hN
  have e1 : ∑ i ∈ Ico (0 + 1) (D.N + 1), quad (D.nux i) (lowerSym ((regularize E o D s).RSQ i)) (z i)
      = ∑ i ∈ Ico 1 (D.N + 1), quad (D.nux i) (lowerSym (stH2 E o D i (pre E o D s i))) (z i) :=
    sum_congr rfl fun i hi => by
      have := mem_Ico.1 hi
      rw [final_RSQ E o D s i (by omega) (by omega)]
  rw [e1, ht]
  have h0 : quad (D.nux 0) (fun i j => stL D 0 (pre E o D s 0) i j
          + stRec E o (D.nux 0) (stL D 0 (pre E o D s 0)) i j) (z 0)
      = quad (D.nux 0) (lowerSym ((regularize E o D s).RSQ 0)) (z 0)
        + quad (D.nux 0) (GG D 0 (pre E o D s 0).P) (z 0) := by
    rw [← quad_add]
    refine quad_congr _ _ _ _ fun i hi j hj => ?_
    rw [stL_eq D 0 _ (pre_sym E o D s 0 (by omega)) i j hi hj, pre_RSQ E o D s 0 (by omega), final_RSQ0]
    unfold lowerSym
    beta_reduce
    split
    · rw [if_pos ⟨hi, hj⟩]; ring
    · rw [if_pos ⟨hj, hi⟩]
      have : stRec E o (D.nux 0) (stL D 0 (pre E o D s 0)) i j
        = stRec E o (D.nux 0) (stL D 0 (pre E o D s 0)) j i := Reg.reconstruct_sym _ _ _ _ _
      rw [this]; ring
  rw [h0, quad_GG D 0 (by omega), pre_P E o D s 0 (by omega)]
  have hx : quad (D.nx (0 + 1)) (stP E o D (0 + 1) (pre E o D s (0 + 1)))
      (fun l => ∑ r ∈ range (D.nux 0), D.BAbt 0 r l * z 0 r)
      = quad (D.nx 1) (stP E o D 1 (pre E o D s 1)) (fun c => z 1 (D.nu 1 + c)) := by
    exact quad_vec_congr _ _ _ _ fun c hc => (hz 0 le_rfl (by omega) c hc).symm
  rw [hx]; ring

theorem sqn_nonneg (n : Nat) (x : Nat → K) : 0 ≤ sqn n x := sum_nonneg fun _ _ => sq_nonneg _

theorem sqn_zero (n : Nat) (x : Nat → K) (h : sqn n x = 0) : ∀ i < n, x i = 0 := fun i hi =>
  pow_eq_zero_iff two_ne_zero |>.1 ((sum_eq_zero_iff_of_nonneg fun j _ => sq_nonneg (x j)).1 h i (mem_range.2 hi))

theorem square_nonneg (E : Ext K) (o : Opts K) (D : Data K) (ss : Nat) (s : Mem K) (z : Nat → K) :
    0 ≤ square E o D ss s z := sum_nonneg fun _ _ => sq_nonneg _

/-- **C78** (curvature in the first stage): along every direction of the linearised dynamics the
regularised Hessian has at least the curvature `min(thr_eig, min_eig)` per unit of `(u₀, x₀)`. -/
theorem C78_first_stage (E : Ext K) (o : Opts K) (D : Data K) (s : Mem K) (hN : 1 ≤ D.N)
    (h1 : 0 < o.thrEig) (h2 : 0 < o.minEig) (hE : EigAll E.eig) (hF : PotrfOk E.potrf)
    (z : Nat → Nat → K) (hz : Traj D 0 z) :
    min o.thrEig o.minEig * sqn (D.nux 0) (z 0) ≤ form D (regularize E o D s).RSQ 0 z := by
  have ho : 0 < min o.thrEig o.minEig := lt_min h1 h2
  rw [total_identity E o D s hN ho hE hF z hz]
  have a := corrected_ge E o hE (D.nux 0) _ (stL_sym D 0 (pre E o D s 0)) (z 0)
  have b : 0 ≤ ∑ i ∈ Ico 1 (D.N + 1), square E o D i (pre E o D s i) (z i) :=
    sum_nonneg fun i _ => square_nonneg E o D i _ _
  linarith

/-- **C78** (convexity): after the projection the QP Hessian is positive definite along the linearised
dynamics, for every horizon, all dimensions and data, with or without pivoting and for every
`min_pivot`: the condensed QP is strictly convex. -/
theorem C78_reduced_hessian_pd (E : Ext K) (o : Opts K) (D : Data K) (s : Mem K) (hN : 1 ≤ D.N)
    (h1 : 0 < o.thrEig) (h2 : 0 < o.minEig) (hE : EigAll E.eig) (hF : PotrfOk E.potrf)
    (z : Nat → Nat → K) (hz : Traj D 0 z) (hne : ∃ i ≤ D.N, ∃ r < D.nux i, z i r ≠ 0) :
    0 < form D (regularize E o D s).RSQ 0 z := by
  have ho : 0 < min o.thrEig o.minEig := lt_min h1 h2
  have hf := C78_first_stage E o D s hN h1 h2 hE hF z hz
  have hs := sqn_nonneg (D.nux 0) (z 0)
  have hge : 0 ≤ form D (regularize E o D s).RSQ 0 z := le_trans (mul_nonneg ho.le hs) hf
  rcases lt_or_eq_of_le hge with h | h
  · exact h
  exfalso
  have hid := total_identity E o D s hN ho hE hF z hz
  rw [← h] at hid hf
  have hz0 : sqn (D.nux 0) (z 0) = 0 := by
    by_contra hne0
    have := mul_pos ho (lt_of_le_of_ne hs (Ne.symm hne0))
    linarith
  have a := corrected_ge E o hE (D.nux 0) _ (stL_sym D 0 (pre E o D s 0)) (z 0)
  rw [hz0, mul_zero] at a
  have hsum : ∑ i ∈ Ico 1 (D.N + 1), square E o D i (pre E o D s i) (z i) = 0 :=
    le_antisymm (by linarith) (sum_nonneg fun i _ => square_nonneg E o D i _ _)
  have hsq : ∀ i ∈ Ico 1 (D.N + 1), square E o D i (pre E o D s i) (z i) = 0 :=
    (sum_eq_zero_iff_of_nonneg fun i _ => square_nonneg E o D i _ _).1 hsum
  have hall : ∀ i ≤ D.N, ∀ r < D.nux i, z i r = 0 := by
    intro i
    induction i with
    | zero => exact fun _ => sqn_zero _ _ hz0
    | succ i ih =>
      intro hi r hr
      have ih' := ih (by omega)
      have hx : ∀ c < D.nx (i + 1), z (i + 1) (D.nu (i + 1) + c) = 0 := by
        intro c hc
        rw [hz i (by omega) (by omega) c hc]
        exact sum_eq_zero fun q hq => by rw [ih' q (mem_range.1 hq), mul_zero]
      have hq := square_ge E o D (i + 1) (pre E o D s (i + 1)) ho hE hF (z (i + 1)) hx
      rw [hsq (i + 1) (mem_Ico.2 ⟨by omega, by omega⟩)] at hq
      have hu : sqn (D.nu (i + 1)) (z (i + 1)) = 0 := by
        by_contra hne0
        have := mul_pos ho (lt_of_le_of_ne (sqn_nonneg _ _) (Ne.symm hne0))
        linarith
      by_cases hru : r < D.nu (i + 1)
      · exact sqn_zero _ _ hu r hru
      · have := hx (r - D.nu (i + 1)) (by unfold Data.nux at hr; omega)
        rwa [Nat.add_sub_cancel' (by omega)] at this
  obtain ⟨i, hi, r, hr, hne'⟩ := hne
  exact hne' (hall i hi r hr)

/-! ## a Hessian that is good enough is left alone -/

/-- the direction that starts with `w` at stage `k` and follows the feedback `fb` -/
def roll (D : Data K) (fb : Nat → (Nat → K) → Nat → K) (k : Nat) (w : Nat → K) : Nat → Nat → K
  | 0 => w
  | t + 1 => fun j =>
    let x : Nat → K := fun c => ∑ r ∈ range (D.nux (k + t)), D.BAbt (k + t) r c * roll D fb k w t r
    if j < D.nu (k + t + 1) then fb (k + t + 1) x j else x (j - D.nu (k + t + 1))

def rollZ (D : Data K) (fb : Nat → (Nat → K) → Nat → K) (k : Nat) (w : Nat → K) : Nat → Nat → K :=
  fun i => if i < k then fun _ => 0 else roll D fb k w (i - k)

theorem rollZ_traj (D : Data K) (fb : Nat → (Nat → K) → Nat → K) (k : Nat) (w : Nat → K) :
    Traj D k (rollZ D fb k w) := by
  intro i hki _ c _
  obtain ⟨t, rfl⟩ := Nat.exists_eq_add_of_le hki
  unfold rollZ
  rw [if_neg (by omega), if_neg (by omega)]
  have e1 : k + t + 1 - k = t + 1 := by omega
  have e2 : k + t - k = t := by omega
  rw [e1, e2]
  simp only [roll]
  rw [if_neg (by omega), Nat.add_sub_cancel_left]

theorem rollZ_traj0 (D : Data K) (fb : Nat → (Nat → K) → Nat → K) (k : Nat) (w : Nat → K)
    (hw : k = 0 ∨ ∀ c < D.nx k, w (D.nu k + c) = 0) : Traj D 0 (rollZ D fb k w) := by
  intro i _ hi c hc
  by_cases h : k ≤ i
  · exact rollZ_traj D fb k w i h hi c hc
  · have h0 : ∑ r ∈ range (D.nux i), D.BAbt i r c * rollZ D fb k w i r = 0 := by
      refine sum_eq_zero fun r _ => ?_
      unfold rollZ
      rw [if_pos (by omega), mul_zero]
    rw [h0]
    unfold rollZ
    by_cases h1 : i + 1 < k
    · rw [if_pos h1]
    · rw [if_neg h1]
      have : i + 1 = k := by omega
      subst this
      rw [Nat.sub_self]
      rcases hw with hw | hw
      · omega
      · exact hw c hc

/-- **C78** (no interference): if the QP Hessian already has curvature at least `thr_eig` along the
linearised dynamics (per unit of the free variables), the projection changes no entry of it. -/
theorem C78_unchanged (E : Ext K) (o : Opts K) (D : Data K) (s : Mem K) (hN : 1 ≤ D.N)
    (h1 : 0 < o.thrEig) (h2 : 0 < o.minEig) (hE : EigAll E.eig) (hF : PotrfOk E.potrf)
    (hH : ∀ z, Traj D 0 z → o.thrEig * freeSq D z ≤ form D s.RSQ 0 z) :
    (regularize E o D s).RSQ = s.RSQ := by
  have ho : 0 < min o.thrEig o.minEig := lt_min h1 h2
  -- feedback of the stages
  have hfb : ∀ i, ∀ x : Nat → K, ∃ u : Nat → K, square E o D i (pre E o D s i)
      (fun j => if j < D.nu i then u j else x (j - D.nu i)) = 0 := fun i x =>
    exists_feedback E o D i (pre E o D s i) ho hE hF x
  choose fb hfb using hfb
  -- if the later stages are unchanged, the value of the form from stage k on
  have hval : ∀ k ≤ D.N, (∀ i, k < i → i ≤ D.N → stH2 E o D i (pre E o D s i) = s.RSQ i) →
      ∀ w, form D s.RSQ k (rollZ D fb k w)
        = quad (D.nux k) (stL D k (pre E o D s k)) w := by
    intro k hk hlater w
    unfold form
    rw [sum_eq_sum_Ico_succ_bot (by omega)]
    have ew : rollZ D fb k w k = w := by
      unfold rollZ; rw [if_neg (by omega), Nat.sub_self]; rfl
    rw [ew]
    have hL : quad (D.nux k) (stL D k (pre E o D s k)) w
        = quad (D.nux k) (lowerSym (s.RSQ k)) w + quad (D.nux k) (GG D k (pre E o D s k).P) w := by
      rw [← quad_add]
      refine quad_congr _ _ _ _ fun i hi j hj => ?_
      rw [stL_eq D k _ (pre_sym E o D s k hk) i j hi hj, pre_RSQ E o D s k hk]
    rw [hL]
    congr 1
    rcases Nat.lt_or_ge k D.N with hkN | hkN
    · have htr : Traj D (k + 1) (rollZ D fb k w) := fun i hi hiN c hc =>
        rollZ_traj D fb k w i (by omega) hiN c hc
      have ht := tail_identity E o D s ho hE hF (rollZ D fb k w) (k + 1) htr hkN
      have e1 : ∑ i ∈ Ico (k + 1) (D.N + 1), quad (D.nux i) (lowerSym (s.RSQ i)) (rollZ D fb k w i)
          = ∑ i ∈ Ico (k + 1) (D.N + 1), quad (D.nux i) (lowerSym (stH2 E o D i (pre E o D s i)))
              (rollZ D fb k w i) := sum_congr rfl fun i hi => by
        have := mem_Ico.1 hi
        rw [hlater i (by omega) (by omega)]
      have e2 : ∑ i ∈ Ico (k + 1) (D.N + 1), square E o D i (pre E o D s i) (rollZ D fb k w i) = 0 := by
        refine sum_eq_zero fun i hi => ?_
        have := mem_Ico.1 hi
        obtain ⟨t, rfl⟩ := Nat.exists_eq_add_of_le (show k + 1 ≤ i by omega)
        have : rollZ D fb k w (k + 1 + t) = roll D fb k w (t + 1) := by
          unfold rollZ
          rw [if_neg (by omega)]
          congr 1
          omega
        rw [this]
        simp only [roll]
        have e : k + t + 1 = k + 1 + t := by omega
        rw [e]
        exact hfb (k + 1 + t) _
      rw [e1, ht, e2, zero_add, quad_GG D k (by omega), pre_P E o D s k hkN]
      have hx := rollZ_traj D fb k w k le_rfl hkN
      exact quad_vec_congr _ _ _ _ fun c hc => by rw [hx c hc, ew]
    · obtain rfl : k = D.N := le_antisymm hk hkN
      rw [Ico_self, sum_empty]
      unfold quad GG; simp
  -- the whole form is the form from stage k on
  have hform : ∀ k ≤ D.N, ∀ w, form D s.RSQ 0 (rollZ D fb k w) = form D s.RSQ k (rollZ D fb k w) := by
    intro k hk w
    unfold form
    rw [← sum_Ico_consecutive _ (Nat.zero_le k) (show k ≤ D.N + 1 by omega)]
    rw [add_eq_right]
    refine sum_eq_zero fun i hi => ?_
    have := mem_Ico.1 hi
    unfold rollZ
    rw [if_pos this.2]
    unfold quad
    simp
  -- no stage is regularised
  have hno : ∀ t, ∀ k, 1 ≤ k → k ≤ D.N → D.N ≤ k + t → stH2 E o D k (pre E o D s k) = s.RSQ k := by
    intro t
    induction t using Nat.strong_induction_on with
    | _ t ih =>
      intro k hk1 hkN hkt
      have hlater : ∀ i, k < i → i ≤ D.N → stH2 E o D i (pre E o D s i) = s.RSQ i := by
        intro i hki hiN
        exact ih (D.N - i) (by omega) i (by omega) hiN (by omega)
      have hge : QuadGe (D.nu k) (stL D k (pre E o D s k)) o.thrEig := by
        intro v
        let w : Nat → K := fun j => if j < D.nu k then v j else 0
        have htr := rollZ_traj0 D fb k w (Or.inr fun c _ => by simp only [w]; rw [if_neg (by omega)])
        have hb := hH _ htr
        rw [hform k hkN w, hval k hkN hlater w] at hb
        have ew : rollZ D fb k w k = w := by
          unfold rollZ; rw [if_neg (by omega), Nat.sub_self]; rfl
        have hfree : sqn (D.nu k) v ≤ freeSq D (rollZ D fb k w) := by
          unfold freeSq
          have := single_le_sum (f := fun i => sqn (D.nu i) (rollZ D fb k w i)) (s := Ico 1 (D.N + 1))
            (fun i _ => sqn_nonneg _ _) (mem_Ico.2 ⟨hk1, by omega⟩)
          simp only [ew] at this
          have e : sqn (D.nu k) w = sqn (D.nu k) v := sum_congr rfl fun i hi => by
            simp only [w]; rw [if_pos (mem_range.1 hi)]
          rw [e] at this
          have h0 := sqn_nonneg (D.nux 0) (rollZ D fb k w 0)
          linarith
        have hq : quad (D.nux k) (stL D k (pre E o D s k)) w
            = quad (D.nu k) (stL D k (pre E o D s k)) v := by
          unfold quad Data.nux
          rw [sum_range_add]
          have z2 : ∑ c ∈ range (D.nx k), w (D.nu k + c)
              * ∑ j ∈ range (D.nu k + D.nx k), stL D k (pre E o D s k) (D.nu k + c) j * w j = 0 :=
            sum_eq_zero fun c _ => by simp only [w]; rw [if_neg (by omega), zero_mul]
          rw [z2, add_zero]
          refine sum_congr rfl fun i hi => ?_
          have hi' := mem_range.1 hi
          rw [sum_range_add]
          have z3 : ∑ c ∈ range (D.nx k), stL D k (pre E o D s k) i (D.nu k + c) * w (D.nu k + c) = 0 :=
            sum_eq_zero fun c _ => by simp only [w]; rw [if_neg (by omega), mul_zero]
          rw [z3, add_zero]
          simp only [w]
          rw [if_pos hi']
          congr 1
          exact sum_congr rfl fun j hj => by rw [if_pos (mem_range.1 hj)]
        rw [← hq]
        exact le_trans (mul_le_mul_of_nonneg_left hfree h1.le) hb
      have hs : SymOn (D.nu k) (stL D k (pre E o D s k)) := fun i hi j hj =>
        stL_sym D k _ i (by unfold Data.nux; omega) j (by unfold Data.nux; omega)
      have hreg : stReg E o (D.nu k) (stL D k (pre E o D s k)) = false :=
        (stReg_false E o _ _).2 (Reg.eig_ge _ _ _ _ (eig_dec E hE _ _ hs) _ hge)
      unfold stH2 stH1
      simp only [hreg, Bool.false_eq_true, if_false]
      exact pre_RSQ E o D s k hkN
  funext i
  rcases Nat.eq_zero_or_pos i with rfl | hi
  · have hlater : ∀ i, 0 < i → i ≤ D.N → stH2 E o D i (pre E o D s i) = s.RSQ i := fun i hi hiN =>
      hno (D.N - i) i hi hiN (by omega)
    have hge : QuadGe (D.nux 0) (stL D 0 (pre E o D s 0)) o.thrEig := by
      intro w
      have hb := hH _ (rollZ_traj0 D fb 0 w (Or.inl rfl))
      rw [hval 0 (by omega) hlater w] at hb
      refine le_trans (mul_le_mul_of_nonneg_left ?_ h1.le) hb
      unfold freeSq
      have ew : rollZ D fb 0 w 0 = w := by
        unfold rollZ; rw [if_neg (by omega), Nat.sub_self]; rfl
      rw [ew]
      have : 0 ≤ ∑ i ∈ Ico 1 (D.N + 1), sqn (D.nu i) (rollZ D fb 0 w i) :=
        sum_nonneg fun i _ => sqn_nonneg _ _
      linarith
    have h0 := corr_zero E o (D.nux 0) _
      (Reg.eig_ge _ _ _ _ (eig_dec E hE _ _ (stL_sym D 0 (pre E o D s 0))) _ hge)
    rw [final_RSQ0]
    funext a b
    rw [h0]
    split <;> rw [add_zero]
  · rcases Nat.lt_or_ge D.N i with h | h
    · exact final_RSQ_tail E o D s i h
    · rw [final_RSQ E o D s i hi h]
      exact hno (D.N - i) i hi h (by omega)

/-! ## cost-to-go -/

/-- completion of squares of the unregularised Hessian from stage `k` on, with the same `P` -/
theorem orig_identity (E : Ext K) (o : Opts K) (D : Data K) (s : Mem K) (k : Nat) (hk : k ≤ D.N)
    (O : ∀ i, k ≤ i → i ≤ D.N → Orig E o D i (pre E o D s i)) (z : Nat → Nat → K) (hz : Traj D k z) :
    ∃ q : Nat → K, (∀ i (h1 : k ≤ i) (h2 : i ≤ D.N), q i = ∑ a ∈ range (D.nu i),
        (O i h1 h2).p a * (∑ r ∈ range (D.nux i), (O i h1 h2).ℓ a r * z i r) ^ 2) ∧
      form D s.RSQ k z = ∑ i ∈ Ico k (D.N + 1), q i
        + quad (D.nx k) (stP E o D k (pre E o D s k)) (stateOf D k z) := by
  classical
  let q : Nat → K := fun i => if h : k ≤ i ∧ i ≤ D.N then ∑ a ∈ range (D.nu i),
        (O i h.1 h.2).p a * (∑ r ∈ range (D.nux i), (O i h.1 h.2).ℓ a r * z i r) ^ 2 else 0
  have hq : ∀ i (h1 : k ≤ i) (h2 : i ≤ D.N), q i = ∑ a ∈ range (D.nu i),
        (O i h1 h2).p a * (∑ r ∈ range (D.nux i), (O i h1 h2).ℓ a r * z i r) ^ 2 := fun i h1 h2 => by
    simp only [q]; rw [dif_pos ⟨h1, h2⟩]
  refine ⟨q, hq, ?_⟩
  have hst : ∀ i, k ≤ i → i ≤ D.N → quad (D.nux i) (lowerSym (s.RSQ i)) (z i)
      + quad (D.nux i) (GG D i (pre E o D s i).P) (z i)
      = q i + quad (D.nx i) (stP E o D i (pre E o D s i)) (stateOf D i z) := by
    intro i h1 h2
    rw [hq i h1 h2]
    have h := (O i h1 h2).id (z i)
    refine Eq.trans ?_ h
    rw [← quad_add]
    refine quad_congr _ _ _ _ fun a ha b hb => ?_
    rw [stL_eq D i _ (pre_sym E o D s i h2) a b ha hb, pre_RSQ E o D s i h2]
  have main : ∀ j, k ≤ j → j ≤ D.N → form D s.RSQ j z = ∑ i ∈ Ico j (D.N + 1), q i
      + quad (D.nx j) (stP E o D j (pre E o D s j)) (stateOf D j z) := by
    intro j hkj hj
    induction hj using Nat.decreasingInduction with
    | self =>
      have h := hst D.N hk le_rfl
      have h0 : quad (D.nux D.N) (GG D D.N (pre E o D s D.N).P) (z D.N) = 0 := by
        unfold quad GG; simp
      rw [h0, add_zero] at h
      unfold form
      rw [Nat.Ico_succ_singleton, sum_singleton, sum_singleton, h]
    | of_succ j hj ih =>
      have h := hst j hkj hj.le
      rw [quad_GG D j (by omega), pre_P E o D s j hj] at h
      have hx : quad (D.nx (j + 1)) (stP E o D (j + 1) (pre E o D s (j + 1)))
          (fun l => ∑ r ∈ range (D.nux j), D.BAbt j r l * z j r)
          = quad (D.nx (j + 1)) (stP E o D (j + 1) (pre E o D s (j + 1))) (stateOf D (j + 1) z) :=
        quad_vec_congr _ _ _ _ fun c hc => (hz j hkj hj c hc).symm
      rw [hx] at h
      have ih' := ih (by omega)
      unfold form at ih' ⊢
      rw [sum_eq_sum_Ico_succ_bot (a := j) (b := D.N + 1) (by omega), ih',
        sum_eq_sum_Ico_succ_bot (a := j) (b := D.N + 1) (by omega)]
      linarith
  exact main k le_rfl hk

/-- the regularised Hessian: form of a direction from stage `k ≥ 1` on -/
theorem reg_identity (E : Ext K) (o : Opts K) (D : Data K) (s : Mem K) (k : Nat) (hk1 : 1 ≤ k)
    (hk : k ≤ D.N) (ho : 0 < min o.thrEig o.minEig) (hE : EigAll E.eig) (hF : PotrfOk E.potrf)
    (z : Nat → Nat → K) (hz : Traj D k z) :
    form D (regularize E o D s).RSQ k z
      = ∑ i ∈ Ico k (D.N + 1), square E o D i (pre E o D s i) (z i)
        + quad (D.nx k) (stP E o D k (pre E o D s k)) (stateOf D k z) := by
  refine Eq.trans ?_ (tail_identity E o D s ho hE hF z k hz hk)
  unfold form
  refine sum_congr rfl fun i hi => ?_
  have := mem_Ico.1 hi
  rw [final_RSQ E o D s i (by omega) (by omega)]

/-- the minimal cost-to-go of the regularised Hessian is the quadratic form of the matrix `P` -/
theorem reg_minimum (E : Ext K) (o : Opts K) (D : Data K) (s : Mem K) (k : Nat) (hk1 : 1 ≤ k)
    (hk : k ≤ D.N) (ho : 0 < min o.thrEig o.minEig) (hE : EigAll E.eig) (hF : PotrfOk E.potrf)
    (x : Nat → K) : ∃ z, Minimal D (regularize E o D s).RSQ k x z ∧
      form D (regularize E o D s).RSQ k z = quad (D.nx k) (stP E o D k (pre E o D s k)) x := by
  have hfb : ∀ i, ∀ x : Nat → K, ∃ u : Nat → K, square E o D i (pre E o D s i)
      (fun j => if j < D.nu i then u j else x (j - D.nu i)) = 0 := fun i x =>
    exists_feedback E o D i (pre E o D s i) ho hE hF x
  choose fb hfb using hfb
  let w : Nat → K := fun j => if j < D.nu k then fb k x j else x (j - D.nu k)
  have ew : rollZ D fb k w k = w := by
    unfold rollZ; rw [if_neg (by omega), Nat.sub_self]; rfl
  have hxz : ∀ c < D.nx k, stateOf D k (rollZ D fb k w) c = x c := fun c _ => by
    unfold stateOf; rw [ew]; simp only [w]; rw [if_neg (by omega), Nat.add_sub_cancel_left]
  have hval : form D (regularize E o D s).RSQ k (rollZ D fb k w)
      = quad (D.nx k) (stP E o D k (pre E o D s k)) x := by
    rw [reg_identity E o D s k hk1 hk ho hE hF _ (rollZ_traj D fb k w),
      quad_vec_congr _ _ _ _ hxz, add_eq_right]
    refine sum_eq_zero fun i hi => ?_
    have hi' := mem_Ico.1 hi
    rcases Nat.eq_or_lt_of_le hi'.1 with h | h
    · subst h
      rw [ew]; exact hfb k x
    · obtain ⟨t, rfl⟩ := Nat.exists_eq_add_of_le (show k + 1 ≤ i by omega)
      have : rollZ D fb k w (k + 1 + t) = roll D fb k w (t + 1) := by
        unfold rollZ
        rw [if_neg (by omega)]
        congr 1
        omega
      rw [this]
      simp only [roll]
      have e : k + t + 1 = k + 1 + t := by omega
      rw [e]
      exact hfb (k + 1 + t) _
  refine ⟨rollZ D fb k w, ⟨rollZ_traj D fb k w, hxz, fun v hv hvx => ?_⟩, hval⟩
  rw [hval, reg_identity E o D s k hk1 hk ho hE hF v hv, quad_vec_congr _ _ _ _ hvx]
  have : 0 ≤ ∑ i ∈ Ico k (D.N + 1), square E o D i (pre E o D s i) (v i) :=
    sum_nonneg fun i _ => square_nonneg E o D i _ _
  linarith

/-- **C78** (cost-to-go, partial): without pivoting and if no pivot of the eliminations is smaller than
`min_pivot`, the projection preserves the cost-to-go of every stage `k ≥ 1`: from every state, the
minimum of the regularised problem is the stationary value of the original one.  Missing: pivoting (the
default), where it is false (`C78_pivoting_false`), and small pivots (`C78_small_pivot_false`). -/
theorem C78_cost_to_go_partial (E : Ext K) (o : Opts K) (D : Data K) (s : Mem K) (k : Nat) (hk1 : 1 ≤ k)
    (hk : k ≤ D.N) (h1 : 0 < o.thrEig) (h2 : 0 < o.minEig) (hE : EigAll E.eig) (hF : PotrfOk E.potrf)
    (hpv : o.pivoting = false) (hm : 0 < o.minPivot)
    (hg : ∀ i, k ≤ i → i ≤ D.N → GoodPivots o D i (pre E o D s i)) (x : Nat → K) :
    SameCostToGo D s.RSQ (regularize E o D s).RSQ k x := by
  have ho : 0 < min o.thrEig o.minEig := lt_min h1 h2
  have hO : ∀ i, k ≤ i → i ≤ D.N → Nonempty (Orig E o D i (pre E o D s i)) := fun i a b =>
    exists_orig E o D i _ ho hE hF (pre_sym E o D s i b) hpv hm (hg i a b)
  have hO' : Nonempty (∀ i, k ≤ i → i ≤ D.N → Orig E o D i (pre E o D s i)) :=
    ⟨fun i a b => (hO i a b).some⟩
  obtain ⟨O⟩ := hO'
  obtain ⟨z', hmin, hval⟩ := reg_minimum E o D s k hk1 hk ho hE hF x
  -- the stationary direction
  have hfb : ∀ i, ∀ x : Nat → K, ∃ u : Nat → K, ∀ (a : k ≤ i) (b : i ≤ D.N), ∀ q < D.nu i,
      ∑ r ∈ range (D.nux i), (O i a b).ℓ q r * (if r < D.nu i then u r else x (r - D.nu i)) = 0 := by
    intro i x
    by_cases h : k ≤ i ∧ i ≤ D.N
    · obtain ⟨v, hv, hz⟩ := (O i h.1 h.2).fb x
      refine ⟨v, fun a b q hq => ?_⟩
      rw [← hz q hq]
      refine sum_congr rfl fun r hr => ?_
      have hr' := mem_range.1 hr
      unfold Data.nux at hr'
      split
      · rfl
      · next h => rw [← hv (r - D.nu i) (by omega), Nat.add_sub_cancel' (by omega)]
    · exact ⟨x, fun a b => absurd ⟨a, b⟩ h⟩
  choose fb hfb using hfb
  let w : Nat → K := fun j => if j < D.nu k then fb k x j else x (j - D.nu k)
  let z := rollZ D fb k w
  have ew : z k = w := by
    simp only [z]; unfold rollZ; rw [if_neg (by omega), Nat.sub_self]; rfl
  have hxz : ∀ c < D.nx k, stateOf D k z c = x c := fun c _ => by
    unfold stateOf; rw [ew]; simp only [w]; rw [if_neg (by omega), Nat.add_sub_cancel_left]
  have hrow : ∀ i (a : k ≤ i) (b : i ≤ D.N), ∀ q < D.nu i,
      ∑ r ∈ range (D.nux i), (O i a b).ℓ q r * z i r = 0 := by
    intro i a b q hq
    rcases Nat.eq_or_lt_of_le a with h | h
    · subst h
      rw [ew]; exact hfb k x a b q hq
    · obtain ⟨t, rfl⟩ := Nat.exists_eq_add_of_le (show k + 1 ≤ i by omega)
      have : z (k + 1 + t) = roll D fb k w (t + 1) := by
        simp only [z]
        unfold rollZ
        rw [if_neg (by omega)]
        congr 1
        omega
      rw [this]
      simp only [roll]
      have e : k + t + 1 = k + 1 + t := by omega
      rw [e]
      exact hfb (k + 1 + t) _ a b q hq
  have hz : Traj D k z := rollZ_traj D fb k w
  obtain ⟨q1, hq1, hf1⟩ := orig_identity E o D s k hk O z hz
  have hzero : form D s.RSQ k z = quad (D.nx k) (stP E o D k (pre E o D s k)) x := by
    rw [hf1, quad_vec_congr _ _ _ _ hxz, add_eq_right]
    refine sum_eq_zero fun i hi => ?_
    have hi' := mem_Ico.1 hi
    rw [hq1 i hi'.1 (by omega)]
    refine sum_eq_zero fun a ha => ?_
    rw [hrow i hi'.1 (by omega) a (mem_range.1 ha)]; ring
  refine ⟨z, z', ⟨hz, hxz, fun δ hδ hδx => ?_⟩, hmin, by rw [hzero, hval]⟩
  obtain ⟨q2, hq2, hf2⟩ := orig_identity E o D s k hk O δ hδ
  have hzδ : Traj D k (fun i r => z i r + δ i r) := by
    intro i hi hiN c hc
    simp only [mul_add, sum_add_distrib]
    rw [hz i hi hiN c hc, hδ i hi hiN c hc]
  obtain ⟨q3, hq3, hf3⟩ := orig_identity E o D s k hk O _ hzδ
  rw [hzero, hf2, hf3]
  have e1 : ∑ i ∈ Ico k (D.N + 1), q3 i = ∑ i ∈ Ico k (D.N + 1), q2 i := by
    refine sum_congr rfl fun i hi => ?_
    have hi' := mem_Ico.1 hi
    rw [hq3 i hi'.1 (by omega), hq2 i hi'.1 (by omega)]
    refine sum_congr rfl fun a ha => ?_
    simp only [mul_add, sum_add_distrib]
    rw [hrow i hi'.1 (by omega) a (mem_range.1 ha), zero_add]
  have e2 : quad (D.nx k) (stP E o D k (pre E o D s k)) (stateOf D k δ) = 0 := by
    rw [quad_vec_congr _ _ _ _ hδx]; unfold quad; simp
  have e3 : quad (D.nx k) (stP E o D k (pre E o D s k)) (stateOf D k fun i r => z i r + δ i r)
      = quad (D.nx k) (stP E o D k (pre E o D s k)) x :=
    quad_vec_congr _ _ _ _ fun c hc => by
      have a := hxz c hc
      have b := hδx c hc
      unfold stateOf at a b ⊢
      beta_reduce
      rw [a, b, add_zero]
  rw [e1, e2, e3]; ring

/-! ## the default options -/

/-- horizon 2, `x⁺ = x`, `nu` controls in the middle stage only, one state -/
def wD (nu : Nat) : Data K where
  N := 2
  nx _ := 1
  nu i := if i = 1 then nu else 0
  BAbt i r _ := if i = 0 ∨ r = nu then 1 else 0

/-- Hessian `H` in the middle stage, zero in the others -/
def wM (H : Nat → Nat → K) : Mem K where
  RSQ i := if i = 1 then H else fun _ _ => 0
  P _ _ := 0
  L2 _ _ := 0

theorem w_L (E : Ext K) (o : Opts K) (nu : Nat) (H : Nat → Nat → K) :
    stL (wD nu) 1 (pre E o (wD nu) (wM H) 1) = trtrL (nu + 1) H := by
  have hP : (pre E o (wD nu) (wM H) 1).P 0 0 = 0 := by
    rw [pre_P E o (wD nu) (wM H) 1 (by show 1 < 2; omega),
      stP_low E o (wD nu) 2 _ 0 0 (by show 0 < 1; omega) le_rfl, stL1_eq]
    have h2 : (pre E o (wD nu) (wM H) 2) = wM H := rfl
    have hr : stReg E o ((wD (K := K) nu).nu 2) (stL (wD nu) 2 (pre E o (wD nu) (wM H) 2)) = false := rfl
    rw [if_neg (by simp [wD]), hr, h2]
    have hn : (wD (K := K) nu).nu 2 = 0 := rfl
    rw [hn]
    simp [stL, trtrL, wM, wD, stL2, stF, Data.nux]
  have hR : (pre E o (wD nu) (wM H) 1).RSQ 1 = H := by
    rw [pre_RSQ E o (wD nu) (wM H) 1 (by show 1 ≤ 2; omega)]; simp [wM]
  unfold stL
  rw [hR]
  have e : (wD (K := K) nu).nux 1 = nu + 1 := rfl
  rw [e]
  congr 1
  funext r c
  rw [if_neg (by show ¬ 1 = 2; omega)]
  have : (wD (K := K) nu).nx (1 + 1) = 1 := rfl
  rw [this, sum_range_one]
  unfold stAL
  rw [this, sum_range_one, hP]
  ring

/-- value of the form from stage 1 on -/
theorem w_form (nu : Nat) (H : Nat → Nat → K) (z : Nat → Nat → K) :
    form (wD nu) (wM H).RSQ 1 z = quad (nu + 1) (lowerSym H) (z 1) := by
  unfold form
  have : Ico 1 ((wD (K := K) nu).N + 1) = {1, 2} := by show Ico 1 3 = {1, 2}; decide
  rw [this, sum_pair (by decide)]
  have h2 : quad ((wD (K := K) nu).nux 2) (lowerSym ((wM H).RSQ 2)) (z 2) = 0 := by
    unfold quad lowerSym; simp [wM]
  rw [h2, add_zero]
  rfl

/-- a control direction of stage 1 -/
def wδ (a : Nat) : Nat → Nat → K := fun i r => if i = 1 ∧ r = a then 1 else 0

theorem wδ_traj (nu a : Nat) (ha : a < nu) : Traj (wD (K := K) nu) 1 (wδ a) := by
  intro i h1 h2 c hc
  obtain rfl : i = 1 := by have : i < 2 := h2; omega
  have e : (wD (K := K) nu).nux 1 = nu + 1 := rfl
  rw [e, sum_eq_zero]
  · unfold wδ; rw [if_neg (by omega)]
  · intro r _
    unfold wδ wD
    simp only
    by_cases h : r = a
    · rw [if_neg (by omega), zero_mul]
    · rw [if_neg (c := True ∧ r = a) (fun h' => h h'.2), mul_zero]

/-- `R = diag(-1, 2, 1)`, `S = (0, 1, 0)`, `Q = 0` -/
def pvH : Nat → Nat → K := fun i j =>
  if i = 0 ∧ j = 0 then -1 else if i = 1 ∧ j = 1 then 2 else if i = 2 ∧ j = 2 then 1
  else if (i = 3 ∧ j = 1) ∨ (i = 1 ∧ j = 3) then 1 else 0

theorem pv_elim0 (A : Nat → Nat → K) (h0 : A 0 0 = -1) (hc : ∀ k, 1 ≤ k → A k 0 = 0) :
    elimStep defaults 4 3 A 0 = A := by
  have hf : (findPivot A 3 0).2 = 0 := by
    have : ((List.range 3).filter fun kk => 0 + 1 ≤ kk) = [1, 2] := by decide
    unfold findPivot
    rw [this]
    simp only [List.foldl_cons, List.foldl_nil, h0, neg_neg]
    have e : ∀ a : K, ¬ (a < -1 ∧ 1 < a) := fun a h => by linarith [h.1, h.2]
    rw [if_neg (e _)]
    simp only [neg_neg]
    rw [if_neg (e _)]
  unfold elimStep
  simp only [hf, permute, ne_eq, not_true_eq_false, if_false, ite_self]
  funext l k
  unfold elim
  split
  · next h => rw [hc k (by omega)]; ring
  · rfl

theorem pv_elim1 (A : Nat → Nat → K) (h11 : A 1 1 = 2) (h22 : A 2 2 = 1) (h21 : A 2 1 = 0)
    (h31 : A 3 1 = 1) (h32 : A 3 2 = 0) (h33 : A 3 3 = 0) :
    elimStep defaults 4 3 A 1 2 2 = 1 ∧ elimStep defaults 4 3 A 1 3 2 = 1 ∧
      elimStep defaults 4 3 A 1 3 3 = 0 := by
  have hf : (findPivot A 3 1).2 = 2 := by
    have : ((List.range 3).filter fun kk => 1 + 1 ≤ kk) = [2] := by decide
    unfold findPivot
    rw [this]
    simp only [List.foldl_cons, List.foldl_nil, h11, h22]
    rw [if_pos ⟨by norm_num, by norm_num⟩]
  have l1 : ((List.range 2).filter fun kk => 1 ≤ kk) = [1] := by decide
  have l2 : ((List.range 4).filter fun kk => 2 + 1 ≤ kk) = [3] := by decide
  have hp : ∀ i j, permute A 4 1 2 i j = if i = 3 ∧ j = 2 then 1 else if i = 3 ∧ j = 1 then 0 else A i j := by
    intro i j
    unfold permute
    rw [if_pos (by decide), l1, l2]
    simp only [List.foldl_cons, List.foldl_nil, swap]
    by_cases c1 : i = 3 ∧ j = 2
    · rw [if_pos c1, if_pos c1]; simp [h31]
    · rw [if_neg c1, if_neg c1]
      by_cases c2 : i = 3 ∧ j = 1
      · rw [if_pos c2, if_pos c2]; simp [h32]
      · rw [if_neg c2, if_neg c2]
        by_cases c3 : i = 1 ∧ j = 1
        · obtain ⟨rfl, rfl⟩ := c3; simp
        · have : ¬ (i = 2 - 1 ∧ j = 2 - 1) := c3
          rw [if_neg this, if_neg c3]
  have e : elimStep defaults 4 3 A 1
      = elim 4 (guardPivot defaults (permute A 4 1 2 1 1)) 1 (permute A 4 1 2) := by
    unfold elimStep
    simp only [defaults, if_true]
    rw [hf]
    rfl
  rw [e]
  have q21 : permute A 4 1 2 2 1 = 0 := by rw [hp]; simp [h21]
  have q31 : permute A 4 1 2 3 1 = 0 := by rw [hp]; simp
  have q22 : permute A 4 1 2 2 2 = 1 := by rw [hp]; simp [h22]
  have q32 : permute A 4 1 2 3 2 = 1 := by rw [hp]; simp
  have q33 : permute A 4 1 2 3 3 = 0 := by rw [hp]; simp [h33]
  unfold elim
  refine ⟨?_, ?_, ?_⟩
  · rw [if_pos (by decide), q22, q21]; ring
  · rw [if_pos (by decide), q32, q31]; ring
  · rw [if_pos (by decide), q33, q31]; ring

theorem pv_elim2 (A : Nat → Nat → K) (h22 : A 2 2 = 1) (h32 : A 3 2 = 1) (h33 : A 3 3 = 0) :
    elimStep defaults 4 3 A 2 3 3 = -1 := by
  have hf : (findPivot A 3 2).2 = 2 := by
    have : ((List.range 3).filter fun kk => 2 + 1 ≤ kk) = [] := by decide
    unfold findPivot
    rw [this]
    rfl
  have hg : guardPivot (defaults : Opts K) 1 = 1 := guard_id _ _ (by simp only [defaults]; norm_num)
  unfold elimStep
  simp only [hf, permute, ne_eq, not_true_eq_false, if_false, ite_self, h22, hg]
  unfold elim
  rw [if_pos (by decide), h33, h32]; norm_num

/-- an exact eigenvalue routine makes the code correct a block with a direction of small curvature -/
theorem reg_of_small (E : Ext K) (o : Opts K) (hE : EigAll E.eig) (n : Nat) (L : Nat → Nat → K)
    (hL : SymOn n L) (v : Nat → K) (hv : quad n L v < o.thrEig * sqn n v) : stReg E o n L = true := by
  cases h : stReg E o n L
  · exfalso
    have hd := (stReg_false E o n L).1 h
    have he := eig_dec E hE n L hL
    have := Reg.quad_ge_of_dec n L _ _ o.thrEig he.rows he.dec hd v
    linarith
  · rfl

/-- the value of the regularised problem when stage 1 is corrected -/
theorem w_P (E : Ext K) (o : Opts K) (nu : Nat) (H : Nat → Nat → K)
    (hr : stReg E o nu (trtrL (nu + 1) H) = true) :
    stP E o (wD nu) 1 (pre E o (wD nu) (wM H) 1) 0 0
      = H nu nu + (List.range nu).foldl (elimStep o (nu + 1) nu)
          (fun i j => if j < nu then trtrL (nu + 1) H i j else 0) nu nu := by
  have hn : (wD (K := K) nu).nu 1 = nu := rfl
  rw [stP_low E o (wD nu) 1 _ 0 0 (by show 0 < 1; omega) le_rfl, stL1_eq, hn, w_L, if_pos hr,
    if_neg (by omega), add_zero, Nat.add_zero]
  have e : stSchur o (wD nu) 1 (pre E o (wD nu) (wM H) 1) = (List.range nu).foldl (elimStep o (nu + 1) nu)
          (fun i j => if j < nu then trtrL (nu + 1) H i j else 0) := by
    unfold stSchur stL3
    rw [w_L]; rfl
  rw [e]
  congr 1
  unfold trtrL
  rw [if_neg (by omega), Nat.add_zero]

/-- value of a minimiser of the regularised problem -/
theorem w_min (E : Ext K) (o : Opts K) (nu : Nat) (H : Nat → Nat → K) (h1 : 0 < o.thrEig)
    (h2 : 0 < o.minEig) (hE : EigAll E.eig) (hF : PotrfOk E.potrf) (z : Nat → Nat → K)
    (hz : Minimal (wD nu) (regularize E o (wD nu) (wM H)).RSQ 1 (fun _ => 1) z) :
    form (wD nu) (regularize E o (wD nu) (wM H)).RSQ 1 z
      = stP E o (wD nu) 1 (pre E o (wD nu) (wM H) 1) 0 0 := by
  obtain ⟨y, hy, hv⟩ := reg_minimum E o (wD nu) (wM H) 1 le_rfl (by show 1 ≤ 2; omega)
    (lt_min h1 h2) hE hF (fun _ => 1)
  have e : quad ((wD (K := K) nu).nx 1) (stP E o (wD nu) 1 (pre E o (wD nu) (wM H) 1)) (fun _ => 1)
      = stP E o (wD nu) 1 (pre E o (wD nu) (wM H) 1) 0 0 := by
    show quad 1 _ _ = _
    unfold quad; simp
  rw [← e, ← hv]
  exact le_antisymm (hz.2.2 y hy.1 hy.2.1) (hy.2.2 z hz.1 hz.2.1)

/-- a stationary point of the original problem is stationary in every control -/
theorem w_stat (nu : Nat) (H : Nat → Nat → K) (z : Nat → Nat → K)
    (hz : Stationary (wD nu) (wM H).RSQ 1 (fun _ => 1) z) (a : Nat) (ha : a < nu) :
    quad (nu + 1) (lowerSym H) (fun r => z 1 r + if r = a then 1 else 0)
      = quad (nu + 1) (lowerSym H) (z 1) + quad (nu + 1) (lowerSym H) (fun r => if r = a then 1 else 0) := by
  have h := hz.2.2 (wδ a) (wδ_traj nu a ha) (fun c hc => by
    have : c < 1 := hc
    have e : (wD (K := K) nu).nu 1 = nu := rfl
    unfold stateOf wδ; rw [e, if_neg (by omega)])
  rw [w_form, w_form, w_form] at h
  have e : wδ (K := K) a 1 = fun r => if r = a then 1 else 0 := by funext r; simp [wδ]
  rw [e] at h
  exact h

/-- **C78** (default options, refuted): with the default options (pivoting on) the cost-to-go is not
preserved: for `R = diag(-1, 2, 1)`, `S = (0, 1, 0)`, `Q = 0` the stationary cost-to-go from `x = 1` is
`-1/2`, but the symmetric exchange of rows and columns is carried out on wrong entries and the
regularised problem has the minimum `-1`. -/
theorem C78_pivoting_false (E : Ext K) (hE : EigAll E.eig) (hF : PotrfOk E.potrf) :
    ¬ SameCostToGo (wD 3) (wM pvH).RSQ (regularize E defaults (wD 3) (wM pvH)).RSQ 1 (fun _ => (1 : K)) := by
  rintro ⟨z, z', hz, hz', heq⟩
  have hreg : stReg E defaults 3 (trtrL 4 (pvH (K := K))) = true := by
    refine reg_of_small E defaults hE 3 _ (fun i hi j hj => Reg.trtrL_sym 4 _ i (by omega) j (by omega))
      (fun i => if i = 0 then 1 else 0) ?_
    simp only [quad, sqn, sum_range_succ, range_zero, sum_empty, trtrL, pvH, defaults]
    norm_num
  have hP := w_P E defaults 3 pvH hreg
  have hl : List.range 3 = [0, 1, 2] := by decide
  rw [hl] at hP
  simp only [List.foldl_cons, List.foldl_nil] at hP
  rw [pv_elim0 _ (by simp [trtrL, pvH]) (fun k hk => by simp [trtrL, pvH]; omega)] at hP
  obtain ⟨a, b, c⟩ := pv_elim1 (fun i j => if j < 3 then trtrL (3 + 1) (pvH (K := K)) i j else 0)
    (by simp [trtrL, pvH]) (by simp [trtrL, pvH]) (by simp [trtrL, pvH]) (by simp [trtrL, pvH])
    (by simp [trtrL, pvH]) (by simp)
  have hs := pv_elim2 _ a b c
  have hmin := w_min E defaults 3 pvH (by simp only [defaults]; norm_num)
    (by simp only [defaults]; norm_num) hE hF z' hz'
  rw [hP, hs] at hmin
  rw [hmin, w_form] at heq
  have hx : z 1 3 = 1 := hz.2.1 0 (by show 0 < 1; omega)
  have s0 := w_stat 3 pvH z hz 0 (by omega)
  have s1 := w_stat 3 pvH z hz 1 (by omega)
  have s2 := w_stat 3 pvH z hz 2 (by omega)
  simp only [quad, sum_range_succ, range_zero, sum_empty, lowerSym, pvH] at s0 s1 s2 heq
  norm_num [hx] at s0 s1 s2 heq
  have e0 : z 1 0 = 0 := by linarith
  have e1 : z 1 1 = -1/2 := by linarith
  have e2 : z 1 2 = 0 := by linarith
  rw [e0, e1, e2] at heq
  norm_num at heq

/-- one control with the curvature `1e-13`, coupled to the state -/
def spH : Nat → Nat → K := fun i j =>
  if i = 0 ∧ j = 0 then 1 / 10000000000000 else if i ≤ 1 ∧ j ≤ 1 ∧ i ≠ j then 1 else 0

/-- **C78** (small pivots, refuted): a pivot below `min_pivot` is replaced by `min_pivot` with the
opposite sign, with or without pivoting.  For `R = 1e-13`, `S = 1`, `Q = 0` and otherwise default
options the (convex) cost-to-go `-1e13·x²` becomes `+1e12·x²`. -/
theorem C78_small_pivot_false (E : Ext K) (hE : EigAll E.eig) (hF : PotrfOk E.potrf) (b : Bool) :
    ¬ SameCostToGo (wD 1) (wM spH).RSQ
      (regularize E { defaults with pivoting := b } (wD 1) (wM spH)).RSQ 1 (fun _ => (1 : K)) := by
  rintro ⟨z, z', hz, hz', heq⟩
  let o : Opts K := { defaults with pivoting := b }
  have hreg : stReg E o 1 (trtrL 2 (spH (K := K))) = true := by
    refine reg_of_small E o hE 1 _ (fun i hi j hj => Reg.trtrL_sym 2 _ i (by omega) j (by omega))
      (fun i => if i = 0 then 1 else 0) ?_
    simp only [quad, sqn, sum_range_succ, range_zero, sum_empty, trtrL, spH, defaults, o]
    norm_num
  have hP := w_P E o 1 spH hreg
  have hl : List.range 1 = [0] := by decide
  rw [hl] at hP
  simp only [List.foldl_cons, List.foldl_nil] at hP
  have hs : ∀ A : Nat → Nat → K, A 0 0 = 1 / 10000000000000 → A 1 0 = 1 → A 1 1 = 0 →
      elimStep o 2 1 A 0 1 1 = 1000000000000 := by
    intro A a0 a1 a2
    have hf : (findPivot A 1 0).2 = 0 := by
      have : ((List.range 1).filter fun kk => 0 + 1 ≤ kk) = [] := by decide
      unfold findPivot
      rw [this]; rfl
    have hg : guardPivot o (1 / 10000000000000) = -(1 / 1000000000000) := by
      unfold guardPivot
      simp only [o, defaults]
      norm_num
    unfold elimStep
    simp only [hf, permute, ne_eq, not_true_eq_false, if_false, ite_self, a0, hg]
    unfold elim
    rw [if_pos (by decide), a1, a2]; norm_num
  rw [hs _ (by simp [trtrL, spH]) (by simp [trtrL, spH]) (by simp)] at hP
  have hmin := w_min E o 1 spH (by simp only [o, defaults]; norm_num)
    (by simp only [o, defaults]; norm_num) hE hF z' hz'
  rw [hP] at hmin
  have heq' : form (wD 1) (wM spH).RSQ 1 z = form (wD 1) (regularize E o (wD 1) (wM spH)).RSQ 1 z' := heq
  rw [hmin, w_form] at heq'
  have hx : z 1 1 = 1 := hz.2.1 0 (by show 0 < 1; omega)
  have s0 := w_stat 1 spH z hz 0 (by omega)
  simp only [quad, sum_range_succ, range_zero, sum_empty, lowerSym, spH] at s0 heq'
  norm_num [hx] at s0 heq'
  have e0 : z 1 0 = -10000000000000 := by linarith
  rw [e0] at heq'
  norm_num at heq'

/-! ## non-vacuity -/

/-- over the reals there are external routines that meet the hypotheses -/
theorem exact_ext : ∃ E : Ext ℝ, EigAll E.eig ∧ PotrfOk E.potrf := by
  classical
  obtain ⟨X, hE, hX⟩ := Conv.exact_ext_exists
  have : ∀ (m n : Nat) (A : Nat → Nat → ℝ), ∃ F : Nat → Nat → ℝ,
      (∃ c, 0 < c ∧ QuadGe n (lowerSym A) c) →
        ∀ r < m, ∀ c < n, c ≤ r → ∑ k ∈ range n, F r k * F c k = A r c := by
    intro m n A
    by_cases h : ∃ c, 0 < c ∧ QuadGe n (lowerSym A) c
    · obtain ⟨L, hL, hS⟩ := hX n m A (fun i j => A (n + i) j) h
      refine ⟨fun r k => if r < n then L r k else X.trsm m n (X.potrf n A) (fun i j => A (n + i) j) (r - n) k,
        fun _ r hr c hc hcr => ?_⟩
      by_cases hrn : r < n
      · have := hL r hrn c hc
        unfold lowerSym at this
        rw [if_pos hcr] at this
        rw [this]
        exact sum_congr rfl fun k _ => by beta_reduce; rw [if_pos hrn, if_pos hc]
      · have := hS (r - n) (by omega) c hc
        rw [Nat.add_sub_cancel' (by omega)] at this
        rw [← this]
        exact sum_congr rfl fun k _ => by beta_reduce; rw [if_neg hrn, if_pos hc]
    · exact ⟨A, fun h' => absurd h' h⟩
  choose F hF using this
  exact ⟨⟨X.eig, F⟩, hE, fun m n A h => hF m n A h⟩

/-- the hypotheses of the convexity theorem are met by an indefinite problem -/
example : ∃ (E : Ext ℝ) (z : Nat → Nat → ℝ), EigAll E.eig ∧ PotrfOk E.potrf ∧ Traj (wD 3) 0 z ∧
    (∃ i ≤ 2, ∃ r < (wD (K := ℝ) 3).nux i, z i r ≠ 0) ∧ form (wD 3) (wM pvH).RSQ 0 z < 0 ∧
    0 < form (wD 3) (regularize E defaults (wD 3) (wM pvH)).RSQ 0 z := by
  obtain ⟨E, hE, hF⟩ := exact_ext
  have hz : Traj (wD (K := ℝ) 3) 0 (wδ 0) := by
    intro i _ h2 c hc
    rcases Nat.eq_zero_or_pos i with rfl | h
    · have e : (wD (K := ℝ) 3).nu 1 = 3 := rfl
      have e2 : (wD (K := ℝ) 3).nux 0 = 1 := rfl
      rw [e2, sum_range_one]
      unfold wδ
      rw [e, if_neg (by omega), if_neg (by omega), mul_zero]
    · exact wδ_traj 3 0 (by omega) i h h2 c hc
  have hne : ∃ i ≤ 2, ∃ r < (wD (K := ℝ) 3).nux i, wδ (K := ℝ) 0 i r ≠ 0 :=
    ⟨1, by omega, 0, by show 0 < 4; omega, by simp [wδ]⟩
  refine ⟨E, wδ 0, hE, hF, hz, hne, ?_, ?_⟩
  · unfold form
    have : Ico 0 ((wD (K := ℝ) 3).N + 1) = {0, 1, 2} := by show Ico 0 3 = _; decide
    have e2 : (wD (K := ℝ) 3).nux 1 = 4 := rfl
    rw [this]
    simp [wM, quad, lowerSym, wδ, e2, sum_range_succ, pvH]
  · exact C78_reduced_hessian_pd E defaults (wD 3) (wM pvH) (by show 1 ≤ 2; omega)
      (by simp only [defaults]; norm_num) (by simp only [defaults]; norm_num) hE hF _ hz hne

/-- identity in the middle stage -/
def idH : Nat → Nat → K := fun i j => if i = j then 1 else 0

/-- the hypotheses of `C78_unchanged` are met: `|u₁|² + x₁²` with `x₁ = x₀` -/
example (z : Nat → Nat → K) (hz : Traj (wD 3) 0 z) :
    (defaults : Opts K).thrEig * freeSq (wD 3) z ≤ form (wD 3) (wM idH).RSQ 0 z := by
  have hx := hz 0 le_rfl (by show 0 < 2; omega) 0 (by show 0 < 1; omega)
  have e0 : (wD (K := K) 3).nux 0 = 1 := rfl
  have e1 : (wD (K := K) 3).nu 1 = 3 := rfl
  have e2 : (wD (K := K) 3).nu 2 = 0 := rfl
  have e3 : (wD (K := K) 3).nux 1 = 4 := rfl
  have i1 : Ico 1 ((wD (K := K) 3).N + 1) = {1, 2} := by show Ico 1 3 = _; decide
  have i0 : Ico 0 ((wD (K := K) 3).N + 1) = {0, 1, 2} := by show Ico 0 3 = _; decide
  rw [e0, sum_range_one] at hx
  have hx' : z 1 3 = z 0 0 := by
    have : (wD (K := K) 3).BAbt 0 0 0 = 1 := by simp [wD]
    rw [this, one_mul] at hx
    exact hx
  have hf : form (wD 3) (wM idH).RSQ 0 z = z 1 0 ^ 2 + z 1 1 ^ 2 + z 1 2 ^ 2 + z 0 0 ^ 2 := by
    unfold form
    rw [i0, sum_insert (by decide), sum_pair (by decide), e3, ← hx']
    simp only [wM, quad, lowerSym, sum_range_succ, range_zero, sum_empty]
    norm_num
    simp [idH]
    ring
  have hs : freeSq (wD 3) z = z 0 0 ^ 2 + (z 1 0 ^ 2 + z 1 1 ^ 2 + z 1 2 ^ 2) := by
    unfold freeSq
    rw [i1, sum_pair (by decide), e0, e1, e2]
    simp only [sqn, sum_range_succ, range_zero, sum_empty]
    ring
  rw [hf, hs]
  simp only [defaults]
  have := sq_nonneg (z 0 0)
  have := sq_nonneg (z 1 0)
  have := sq_nonneg (z 1 1)
  have := sq_nonneg (z 1 2)
  nlinarith

/-- the hypotheses of `C78_cost_to_go_partial` are met by the problem of `C78_pivoting_false` when
pivoting is switched off: the pivots are `-1, 2, 1` -/
example (E : Ext K) (i : Nat) (h1 : 1 ≤ i) (h2 : i ≤ 2) :
    GoodPivots { defaults with pivoting := false } (wD 3) i
      (pre E { defaults with pivoting := false } (wD 3) (wM pvH) i) := by
  let o : Opts K := { defaults with pivoting := false }
  rcases (show i = 2 ∨ i = 1 by omega) with rfl | rfl
  · intro j hj
    have : (wD (K := K) 3).nu 2 = 0 := rfl
    omega
  · intro j hj
    have hj' : j < 3 := hj
    have e3 : (wD (K := K) 3).nux 1 = 4 := rfl
    have e4 : (wD (K := K) 3).nu 1 = 3 := rfl
    have eA : stL3 (wD 3) 1 (pre E o (wD 3) (wM pvH) 1)
        = fun i j => if j < 3 then trtrL 4 (pvH (K := K)) i j else 0 := by
      unfold stL3; rw [w_L]; rfl
    show o.minPivot ≤ |elimAt o ((wD (K := K) 3).nux 1) ((wD (K := K) 3).nu 1)
      (stL3 (wD 3) 1 (pre E o (wD 3) (wM pvH) 1)) j j j|
    rw [eA, e3, e4]
    have hg : ∀ p : K, 1 ≤ |p| → guardPivot o p = p := fun p hp =>
      guard_id o p (le_trans (by simp only [o, defaults]; norm_num) hp)
    have hm : o.minPivot ≤ 1 := by simp only [o, defaults]; norm_num
    have step : ∀ (A : Nat → Nat → K) (q : Nat), elimStep o 4 3 A q = elim 4 (guardPivot o (A q q)) q A := by
      intro A q; unfold elimStep; simp [o]
    refine le_trans hm ?_
    rcases (show j = 0 ∨ j = 1 ∨ j = 2 by omega) with rfl | rfl | rfl
    · simp [elimAt, trtrL, pvH]
    · rw [elimAt_succ, step]
      simp [elimAt, elim, trtrL, pvH]
    · rw [elimAt_succ, step, elimAt_succ, step]
      simp [elimAt, elim, trtrL, pvH]

end Acados.ReducHess
