import Verif.Model.NlpParam
import Mathlib.Algebra.Order.Field.Basic
import Mathlib.Tactic.Linarith
import Mathlib.Tactic.NormNum
import Mathlib.Tactic.Ring
import Mathlib.Tactic.Positivity
import Mathlib.Tactic.FieldSimp
/-!
# Properties C26 (adaptive Levenberg-Marquardt) and C51 (adaptive QP tolerances)
-/
namespace Acados.Param
variable {K : Type*} [Field K] [LinearOrder K] [IsStrictOrderedRing K]

@[simp] theorem lit_zero : (lit 0 1 : K) = 0 := by simp [lit]
@[simp] theorem lit_one : (lit 1 1 : K) = 1 := by simp [lit]

/-! ## C26 -/

/-- configurations a user may choose: growth factor at least one, minimum nonnegative, start value
not below the minimum, minimum at most one (the Python interface documents `lam > 1`, `mu_min > 0`,
`mu0 > 0`; defaults 5, 1e-16, 1e-3) -/
structure LmOpts.Ok (o : LmOpts K) : Prop where
  lam : 1 ≤ o.lam
  min_nonneg : 0 ≤ o.muMin
  min_le_start : o.muMin ≤ o.mu0
  min_le_one : o.muMin ≤ 1

/-- state invariant used in the proofs -/
def MuInv (o : LmOpts K) (m : LmMem K) : Prop :=
  o.muMin ≤ m.mu ∧ m.mu ≤ max 1 o.mu0 ∧ o.muMin ≤ m.muBar ∧ m.muBar ≤ max 1 o.mu0

theorem updateMu_inv (o : LmOpts K) (ho : o.Ok) (m : LmMem K) (k : Nat) (a : K)
    (h : k = 0 ∨ MuInv o m) : MuInv o (updateMu o m k a) := by
  have hl : 0 < o.lam := lt_of_lt_of_le one_pos ho.lam
  unfold updateMu
  split
  · exact ⟨ho.min_le_start, le_max_right _ _, ho.min_le_start, le_max_right _ _⟩
  · next hk =>
    obtain ⟨h1, h2, h3, h4⟩ := h.resolve_left hk
    split
    · refine ⟨?_, ?_, h1, h2⟩
      · rw [cmax_eq_max]; exact le_max_left _ _
      · simp only [cmax_eq_max]
        refine max_le (ho.min_le_one.trans (le_max_left _ _)) (le_trans ?_ h4)
        exact div_le_self (ho.min_nonneg.trans h3) ho.lam
    · refine ⟨?_, ?_, h3, h4⟩
      · simp only [cmin_eq_min, lit_one]
        refine le_min (h1.trans ?_) ho.min_le_one
        have : 0 ≤ m.mu := ho.min_nonneg.trans h1
        nlinarith [ho.lam]
      · simp only [cmin_eq_min, lit_one]
        exact (min_le_right _ _).trans (le_max_left _ _)

/-- fold with a counter that stays positive -/
theorem foldl_counter (o : LmOpts K) (steps : List K) (n : Nat) (m : LmMem K) :
    (steps.foldl (fun (s : Nat × LmMem K) a => (s.1 + 1, updateMu o s.2 s.1 a)) (n, m)).1
      = n + steps.length := by
  induction steps generalizing n m with
  | nil => rfl
  | cons a t ih => simp only [List.foldl_cons, List.length_cons]; rw [ih]; omega

theorem runMu_snoc (o : LmOpts K) (m : LmMem K) (steps : List K) (a : K) :
    runMu o m (steps ++ [a]) = updateMu o (runMu o m steps) (steps.length + 1) a := by
  unfold runMu
  rw [List.foldl_append, List.foldl_cons, List.foldl_nil, foldl_counter]
  simp only [Nat.add_comm 1]

theorem runMu_nil (o : LmOpts K) (m : LmMem K) : runMu o m [] = ⟨o.mu0, o.mu0⟩ := rfl

/-- **C26** (limits): whatever step sizes the iterations took, the Levenberg-Marquardt parameter
stays between the configured minimum and the larger of one and its start value. -/
theorem C26_within_limits (o : LmOpts K) (ho : o.Ok) (m : LmMem K) (steps : List K) :
    o.muMin ≤ (runMu o m steps).mu ∧ (runMu o m steps).mu ≤ max 1 o.mu0 := by
  have : MuInv o (runMu o m steps) := by
    induction steps using List.reverseRecOn with
    | nil => exact ⟨ho.min_le_start, le_max_right _ _, ho.min_le_start, le_max_right _ _⟩
    | append_singleton t a ih =>
      rw [runMu_snoc]
      exact updateMu_inv o ho _ _ _ (Or.inr ih)
  exact ⟨this.1, this.2.1⟩

/-- **C26** (positive): with a positive minimum the parameter is positive in every iteration. -/
theorem C26_positive (o : LmOpts K) (ho : o.Ok) (hp : 0 < o.muMin) (m : LmMem K)
    (steps : List K) : 0 < (runMu o m steps).mu :=
  lt_of_lt_of_le hp (C26_within_limits o ho m steps).1

/-- **C26** (history independence): a new solve forgets the parameter of earlier solves. -/
theorem C26_forgets_history (o : LmOpts K) (m m' : LmMem K) (steps : List K) :
    runMu o m steps = runMu o m' steps := rfl

/-- **C26** (growth): `k + 1` successive iterations without a full step multiply the parameter by
the configured factor each time, capped at one. -/
theorem C26_rejected_growth (o : LmOpts K) (ho : o.Ok) (m : LmMem K) (steps rej : List K)
    (hr : ∀ a ∈ rej, a ≠ 1) (hne : rej ≠ []) :
    (runMu o m (steps ++ rej)).mu
      = min (o.lam ^ rej.length * (runMu o m steps).mu) 1 := by
  have hl : 0 < o.lam := lt_of_lt_of_le one_pos ho.lam
  induction rej using List.reverseRecOn with
  | nil => exact absurd rfl hne
  | append_singleton t a ih =>
    have ha : a ≠ 1 := hr a (by simp)
    rw [← List.append_assoc, runMu_snoc]
    unfold updateMu
    rw [if_neg (by omega), if_neg (by rwa [lit_one])]
    simp only [cmin_eq_min, lit_one]
    rcases eq_or_ne t [] with rfl | ht
    · simp
    · rw [ih (fun b hb => hr b (by simp [hb])) ht, List.length_append, List.length_singleton,
        pow_succ', mul_assoc]
      rcases le_total (o.lam ^ t.length * (runMu o m steps).mu) 1 with h | h
      · rw [min_eq_left h]
      · rw [min_eq_right h, mul_one, min_eq_right ho.lam, min_eq_right]
        calc (1 : K) ≤ o.lam * 1 := by linarith [ho.lam]
          _ ≤ o.lam * (o.lam ^ t.length * (runMu o m steps).mu) :=
            mul_le_mul_of_nonneg_left h hl.le

/-- both parameters after `n` full steps from the start -/
theorem full_steps (o : LmOpts K) (ho : o.Ok) (m : LmMem K) (n : Nat) :
    (runMu o m (List.replicate n 1)).mu = max o.muMin (o.mu0 / o.lam ^ ((n + 1) / 2)) ∧
    (runMu o m (List.replicate n 1)).muBar = max o.muMin (o.mu0 / o.lam ^ (n / 2)) := by
  have hl : 0 < o.lam := lt_of_lt_of_le one_pos ho.lam
  induction n with
  | zero =>
    have : max o.muMin o.mu0 = o.mu0 := max_eq_right ho.min_le_start
    simp [runMu_nil, this]
  | succ n ih =>
    rw [List.replicate_succ', runMu_snoc]
    unfold updateMu
    rw [if_neg (by omega), if_pos (by rw [lit_one])]
    refine ⟨?_, ih.1⟩
    simp only [cmax_eq_max]
    rw [ih.2, show (n + 1 + 1) / 2 = n / 2 + 1 by omega, pow_succ]
    have e : o.mu0 / (o.lam ^ (n / 2) * o.lam) = o.mu0 / o.lam ^ (n / 2) / o.lam := by
      rw [div_div]
    rw [e]
    rcases le_total o.muMin (o.mu0 / o.lam ^ (n / 2)) with h | h
    · rw [max_eq_right h]
    · rw [max_eq_left h]
      have h1 : o.muMin / o.lam ≤ o.muMin := div_le_self ho.min_nonneg ho.lam
      have h2 : o.mu0 / o.lam ^ (n / 2) / o.lam ≤ o.muMin :=
        le_trans (div_le_div_of_nonneg_right h hl.le) h1
      rw [max_eq_left h1, max_eq_left h2]

/-- **C26** (decay): under uninterrupted full steps the parameter falls geometrically, by the
configured factor every second iteration, until it reaches the minimum. -/
theorem C26_full_step_decay (o : LmOpts K) (ho : o.Ok) (m : LmMem K) (n : Nat) :
    (runMu o m (List.replicate n 1)).mu = max o.muMin (o.mu0 / o.lam ^ ((n + 1) / 2)) :=
  (full_steps o ho m n).1

/-- iterations without a full step keep the stored reference value -/
theorem muBar_rejected (o : LmOpts K) (m : LmMem K) (steps rej : List K)
    (hr : ∀ a ∈ rej, a ≠ 1) : (runMu o m (steps ++ rej)).muBar = (runMu o m steps).muBar := by
  induction rej using List.reverseRecOn with
  | nil => simp
  | append_singleton t a ih =>
    rw [← List.append_assoc, runMu_snoc]
    unfold updateMu
    rw [if_neg (by omega), if_neg (by rw [lit_one]; exact hr a (by simp))]
    exact ih (fun b hb => hr b (by simp [hb]))

/-- **C26** (recovery): the first full step after any number of damped iterations returns the
parameter to one factor below the stored reference value; the growth accumulated in between is
undone at once. -/
theorem C26_recovery (o : LmOpts K) (m : LmMem K) (steps rej : List K)
    (hr : ∀ a ∈ rej, a ≠ 1) :
    (runMu o m (steps ++ rej ++ [1])).mu = max o.muMin ((runMu o m steps).muBar / o.lam) := by
  rw [runMu_snoc]
  unfold updateMu
  rw [if_neg (by omega), if_pos (by rw [lit_one])]
  simp only [cmax_eq_max]
  rw [muBar_rejected o m steps rej hr]

/-- a single iteration can therefore shrink the parameter by more than the configured factor:
three damped iterations and one full step, default options except `mu0 = 1/100` -/
theorem C26_drop_exceeds_factor :
    ∃ (o : LmOpts ℚ) (_ : o.Ok) (m : LmMem ℚ) (steps : List ℚ),
      (runMu o m (steps ++ [1])).mu * o.lam < (runMu o m steps).mu :=
  ⟨⟨5, 1/10^16, 1/100, 1⟩, ⟨by norm_num, by norm_num, by norm_num, by norm_num⟩, ⟨0, 0⟩,
    [1/2, 1/2, 1/2], by decide +kernel⟩

/-- **C26** (Hessian term): what is added to the QP Hessian is `scaling · levenberg_marquardt` on
the diagonal of every stage when the value is positive, nothing otherwise; with the adaptive rule
the value is `obj_scalar · cost · mu`. -/
theorem C26_hessian_term (N : Nat) (nxu : Nat → Nat) (scaling : Nat → K) (ad ch : Bool)
    (o : LmOpts K) (cost alpha : K) (iter : Nat) (s : LmState K) (i r c : Nat)
    (hi : i ≤ N) (hr : r < nxu i) :
    let s' := addLm N nxu scaling ad ch o cost alpha iter s
    s'.lm = (if ad then o.objScalar * cost * (updateMu o s.mem iter alpha).mu else s.lm) ∧
    s'.hess i r c = s.hess i r c +
      (if ch = true ∧ r = c then scaling i * max 0 s'.lm else 0) := by
  cases ad <;> cases ch <;> simp only [addLm] <;>
    refine ⟨?_, ?_⟩ <;> split_ifs <;>
    simp_all [max_eq_right, max_eq_left, le_of_lt]

/-- the user's fixed `levenberg_marquardt` value is overwritten by the adaptive rule and is what a
later solve with the rule switched off uses -/
theorem C26_option_overwritten :
    ∃ (o : LmOpts ℚ) (s : LmState ℚ),
      (addLm 0 (fun _ => 1) (fun _ => 1) false true o 1 1 0
        (addLm 0 (fun _ => 1) (fun _ => 1) true false o 7 1 0 s)).hess 0 0 0 ≠
      (addLm 0 (fun _ => 1) (fun _ => 1) false true o 1 1 0 s).hess 0 0 0 :=
  ⟨⟨5, 0, 1, 1⟩, ⟨2, ⟨0, 0⟩, fun _ _ _ => 0⟩, by decide +kernel⟩

/-- the hypotheses are met by the default options, and the parameter really moves -/
example : ∃ o : LmOpts ℚ, o.Ok ∧ o.mu0 = 1/1000 ∧
    (runMu o ⟨0, 0⟩ [1/2, 1/2, 1, 1, 1]).mu = 1/25000 ∧
    (runMu o ⟨0, 0⟩ [1/2, 1/2]).mu = 25/1000 :=
  ⟨⟨5, 1/10^16, 1/1000, 1⟩, ⟨by norm_num, by norm_num, by norm_num, by norm_num⟩,
    by norm_num, by decide +kernel, by decide +kernel⟩

/-! ## C51 -/

/-- the largest of the four entries -/
def Four.top (f : Four K) : K := max f.stat (max f.eq (max f.ineq f.comp))

/-- all four entries satisfy `P`, entry by entry together with the second record -/
def Four.All2 {D : Type*} (P : D → D → Prop) (f g : Four D) : Prop :=
  P f.stat g.stat ∧ P f.eq g.eq ∧ P f.ineq g.ineq ∧ P f.comp g.comp

theorem jointTol_eq (o : TolOpts K) (h : 0 ≤ o.reduction) (res : Four K) :
    jointTol o res = min (o.reduction * res.top) (1/100) := by
  have e : (lit 1 100 : K) = 1/100 := by simp [lit]
  unfold jointTol Four.top
  simp only [cmax_eq_max, cmin_eq_min, e]
  rw [mul_max_of_nonneg _ _ h, mul_max_of_nonneg _ _ h, mul_max_of_nonneg _ _ h,
    min_max_distrib_right, min_max_distrib_right, min_max_distrib_right]

/-- **C51** (residual-driven tolerances): each tolerance handed to the QP solver is the larger of
`safety · NLP tolerance` and `min (reduction · largest residual) 1e-2`. -/
theorem C51_joint_value (o : TolOpts K) (h : 0 ≤ o.reduction) (res : Four K) :
    (tolJoint o res).All2 (fun t u => t = max (o.safety * u) (min (o.reduction * res.top) (1/100)))
      o.tol := by
  simp only [Four.All2, tolJoint, cmax_eq_max, jointTol_eq o h, and_self]

/-- **C51** (limits): it is never below the configured floor `safety · tol` and never above the
larger of that floor and `1e-2`. -/
theorem C51_joint_limits (o : TolOpts K) (h : 0 ≤ o.reduction) (res : Four K) :
    (tolJoint o res).All2 (fun t u => o.safety * u ≤ t ∧ t ≤ max (o.safety * u) (1/100)) o.tol := by
  obtain ⟨h1, h2, h3, h4⟩ := C51_joint_value o h res
  have key : ∀ t u : K, t = max (o.safety * u) (min (o.reduction * res.top) (1/100)) →
      o.safety * u ≤ t ∧ t ≤ max (o.safety * u) (1/100) := by
    rintro t u rfl
    exact ⟨le_max_left _ _, max_le_max le_rfl (min_le_right _ _)⟩
  exact ⟨key _ _ h1, key _ _ h2, key _ _ h3, key _ _ h4⟩

/-- **C51** (shrinks with the residual): residuals that are all at most `reduction`-close to the
target tighten the tolerances monotonically, and once every residual is below
`safety · tol / reduction` the floor is reached. -/
theorem C51_joint_monotone (o : TolOpts K) (h : 0 ≤ o.reduction) (res res' : Four K)
    (hle : res.top ≤ res'.top) :
    (tolJoint o res).All2 (fun t t' => t ≤ t') (tolJoint o res') := by
  obtain ⟨h1, h2, h3, h4⟩ := C51_joint_value o h res
  obtain ⟨g1, g2, g3, g4⟩ := C51_joint_value o h res'
  have key : ∀ a : K, max a (min (o.reduction * res.top) (1/100))
      ≤ max a (min (o.reduction * res'.top) (1/100)) := fun a =>
    max_le_max le_rfl (min_le_min (mul_le_mul_of_nonneg_left hle h) le_rfl)
  refine ⟨?_, ?_, ?_, ?_⟩
  · rw [h1, g1]; exact key _
  · rw [h2, g2]; exact key _
  · rw [h3, g3]; exact key _
  · rw [h4, g4]; exact key _

/-- **C51** (final accuracy): small residuals give exactly the floor. -/
theorem C51_joint_floor (o : TolOpts K) (h : 0 ≤ o.reduction) (res : Four K)
    (hs : o.reduction * res.top ≤ o.safety * o.tol.stat)
    (he : o.reduction * res.top ≤ o.safety * o.tol.eq)
    (hi : o.reduction * res.top ≤ o.safety * o.tol.ineq)
    (hc : o.reduction * res.top ≤ o.safety * o.tol.comp) :
    (tolJoint o res).All2 (fun t u => t = o.safety * u) o.tol := by
  obtain ⟨h1, h2, h3, h4⟩ := C51_joint_value o h res
  have key : ∀ t u : K, t = max u (min (o.reduction * res.top) (1/100)) →
      o.reduction * res.top ≤ u → t = u := by
    rintro t u rfl hu
    exact max_eq_left ((min_le_left _ _).trans hu)
  exact ⟨key _ _ h1 hs, key _ _ h2 he, key _ _ h3 hi, key _ _ h4 hc⟩

/-- **C51** (NaN residuals): in floating point a NaN residual cannot reach the QP solver: every
tolerance is a comparison-safe value that is at least the floor, whatever the residuals are. -/
theorem C51_joint_not_nan (o : TolOpts Dbl) (res : Four Dbl) (u : Four Rat)
    (hf : o.tol = ⟨.fin u.stat, .fin u.eq, .fin u.ineq, .fin u.comp⟩) (sf : Rat)
    (hs : o.safety = .fin sf) :
    (tolJoint o res).All2 (fun t v => t ≠ .nan ∧ o.safety * v ≤ t ∧ t < .pinf) o.tol := by
  have hmin : ∀ a : Dbl, ∃ b : Dbl, cmin a (lit 1 100) = b ∧ b ≠ .nan ∧ b < .pinf := by
    intro a
    refine ⟨_, rfl, ?_⟩
    have e : (lit 1 100 : Dbl) = .fin (1/100) := by decide +kernel
    unfold cmin
    rw [e]
    cases a with
    | nan => exact ⟨by decide +kernel, by decide +kernel⟩
    | ninf => exact ⟨by decide +kernel, by decide +kernel⟩
    | pinf => exact ⟨by decide +kernel, by decide +kernel⟩
    | fin q =>
      split
      · exact ⟨by simp, rfl⟩
      · exact ⟨by simp, rfl⟩
  have hmax : ∀ a b : Dbl, (a ≠ .nan ∧ a < .pinf) → (b ≠ .nan ∧ b < .pinf) →
      cmax a b ≠ .nan ∧ cmax a b < .pinf := by
    intro a b ha hb
    unfold cmax
    split <;> assumption
  have hge : ∀ (q : Rat) (b : Dbl), b ≠ .nan → (Dbl.fin q) ≤ cmax (.fin q) b := by
    intro q b hb
    unfold cmax
    cases b with
    | nan => exact absurd rfl hb
    | ninf => exact decide_eq_true (le_refl q)
    | pinf => rfl
    | fin r =>
      split
      · exact decide_eq_true (le_refl q)
      · next h =>
        have : ¬ (r < q) := fun hh => h (decide_eq_true hh)
        exact decide_eq_true (not_lt.1 this)
  have hj : jointTol o res ≠ .nan ∧ jointTol o res < .pinf := by
    unfold jointTol
    obtain ⟨s, hs', s1, s2⟩ := hmin (o.reduction * res.stat)
    obtain ⟨e, he', e1, e2⟩ := hmin (o.reduction * res.eq)
    obtain ⟨i, hi', i1, i2⟩ := hmin (o.reduction * res.ineq)
    obtain ⟨c, hc', c1, c2⟩ := hmin (o.reduction * res.comp)
    simp only [hs', he', hi', hc']
    exact hmax _ _ ⟨s1, s2⟩ (hmax _ _ ⟨e1, e2⟩ (hmax _ _ ⟨i1, i2⟩ ⟨c1, c2⟩))
  have key : ∀ q : Rat, cmax (o.safety * .fin q) (jointTol o res) ≠ .nan ∧
      o.safety * .fin q ≤ cmax (o.safety * .fin q) (jointTol o res) ∧
      cmax (o.safety * .fin q) (jointTol o res) < .pinf := by
    intro q
    have e : o.safety * .fin q = .fin (sf * q) := by rw [hs]; rfl
    have hm := hmax (.fin (sf * q)) (jointTol o res) ⟨by simp, rfl⟩ hj
    rw [e]
    exact ⟨hm.1, hge _ _ hj.1, hm.2⟩
  simp only [Four.All2, tolJoint, hf]
  exact ⟨key _, key _, key _, key _⟩

/-- **C51** (scaling-driven tolerances): each tolerance is the larger of the configured minimum and
`safety · tol` times a factor; for stationarity the factor is at most both the objective factor and
the smallest constraint factor reported by the scaling module. -/
theorem C51_scaling_limits (o : TolOpts K) (objFac minScal : K)
    (hs : 0 ≤ o.safety) (ht : 0 ≤ o.tol.stat) :
    (tolScaling o objFac minScal).All2 (fun t m => m ≤ t) o.min ∧
    (o.min.stat < (tolScaling o objFac minScal).stat →
      (tolScaling o objFac minScal).stat ≤ o.safety * o.tol.stat * objFac ∧
      (tolScaling o objFac minScal).stat ≤ o.safety * o.tol.stat * minScal) ∧
    (o.min.ineq < (tolScaling o objFac minScal).ineq →
      (tolScaling o objFac minScal).ineq = o.safety * o.tol.ineq * minScal) ∧
    (o.min.comp < (tolScaling o objFac minScal).comp →
      (tolScaling o objFac minScal).comp = o.safety * o.tol.comp * minScal) ∧
    (o.min.eq < (tolScaling o objFac minScal).eq →
      (tolScaling o objFac minScal).eq = o.safety * o.tol.eq) := by
  have hst : 0 ≤ o.safety * o.tol.stat := mul_nonneg hs ht
  simp only [Four.All2, tolScaling, cmax_eq_max, cmin_eq_min, lit_one, mul_one]
  refine ⟨⟨le_max_right _ _, le_max_right _ _, le_max_right _ _, le_max_right _ _⟩, ?_, ?_, ?_, ?_⟩
  · intro h
    have h' := (lt_max_iff.1 h).resolve_right (lt_irrefl _)
    rw [max_eq_left h'.le]
    exact ⟨mul_le_mul_of_nonneg_left (min_le_left _ _) hst,
      mul_le_mul_of_nonneg_left (min_le_right _ _) hst⟩
  all_goals
    intro h
    have h' := (lt_max_iff.1 h).resolve_right (lt_irrefl _)
    exact max_eq_left h'.le

/-- the limits are met non-trivially: default options, residuals 1, 1e-3 and 1e-9 give three
different tolerances -/
example :
    let o : TolOpts ℚ := ⟨1/10, 1/10, ⟨1/10^6, 1/10^6, 1/10^6, 1/10^6⟩,
      ⟨1/10^9, 1/10^10, 1/10^10, 1/10^11⟩⟩
    (tolJoint o ⟨1, 0, 0, 0⟩).eq = 1/100 ∧ (tolJoint o ⟨1/1000, 0, 0, 0⟩).eq = 1/10000 ∧
      (tolJoint o ⟨1/10^9, 0, 0, 0⟩).eq = 1/10^7 ∧
      (tolScaling o (1/10) (1/2)).stat = 1/10^8 := by
  decide +kernel

end Acados.Param
