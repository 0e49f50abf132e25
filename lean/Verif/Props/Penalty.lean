import Verif.Lemmas.Penalty2
import Mathlib.Algebra.Order.Ring.Rat
import Mathlib.Tactic.NormNum
/-!
# C85: constraints formulated as penalties
-/
namespace Acados.Penalty
open Finset Acados.CostForm
variable {K : Type} [Field K] [LinearOrder K] [IsStrictOrderedRing K]

theorem eval_violE (L : Lang K (Fn K)) (hL : Means L) (e : E K) (ub lb : Option (E K)) (v : Env K) :
    (violE e ub lb).eval L v = match ub.map (·.eval L v), lb.map (·.eval L v) with
      | some u, some l => max (max 0 (e.eval L v - u)) (l - e.eval L v)
      | some u, none => max 0 (e.eval L v - u)
      | none, some l => max 0 (l - e.eval L v)
      | none, none => 0 := by
  rcases ub with _ | u <;> rcases lb with _ | l
  · rfl
  · show L.I .fmax 0 ((l.sub e).eval L v) = _; rw [hL.fmax, eval_sub]; rfl
  · show L.I .fmax 0 ((e.sub u).eval L v) = _; rw [hL.fmax, eval_sub]; rfl
  · show L.I .fmax (L.I .fmax 0 ((e.sub u).eval L v)) ((l.sub e).eval L v) = _
    rw [hL.fmax, hL.fmax, eval_sub, eval_sub]; rfl

/-- **C85** (violation).  The expression that is penalised is the distance of the constraint function to the numbers that meet the
bounds. -/
theorem C85_violation (L : Lang K (Fn K)) (hL : Means L) (e : E K) (ub lb : Option (E K)) (v : Env K)
    (h : ∀ u l, ub = some u → lb = some l → l.eval L v ≤ u.eval L v) :
    IsDist (lb.map (·.eval L v)) (ub.map (·.eval L v)) (e.eval L v) ((violE e ub lb).eval L v) := by
  rw [eval_violE L hL]
  generalize e.eval L v = t
  rcases ub with _ | u <;> rcases lb with _ | l
  · refine ⟨⟨t, ⟨fun _ hl => (by cases hl), fun _ hu => (by cases hu)⟩, ?_⟩, fun s _ => abs_nonneg _⟩
    show |t - t| = 0
    rw [sub_self, abs_zero]
  · show IsDist (some (l.eval L v)) none t (max 0 (l.eval L v - t))
    generalize l.eval L v = l
    refine ⟨⟨max l t, ⟨fun a ha => (by cases ha; exact le_max_left _ _), fun _ hu => (by cases hu)⟩, ?_⟩, ?_⟩
    · rcases le_total l t with h1 | h1
      · rw [max_eq_right h1, sub_self, abs_zero, max_eq_left (by linarith)]
      · rw [max_eq_left h1, max_eq_right (by linarith), abs_sub_comm, abs_of_nonneg (by linarith)]
    · intro s hs
      have := hs.1 l rfl
      refine max_le (abs_nonneg _) ?_
      rw [abs_sub_comm]; exact le_trans (by linarith) (le_abs_self (s - t))
  · show IsDist none (some (u.eval L v)) t (max 0 (t - u.eval L v))
    generalize u.eval L v = u
    refine ⟨⟨min u t, ⟨fun _ hl => (by cases hl), fun a ha => (by cases ha; exact min_le_left _ _)⟩, ?_⟩, ?_⟩
    · rcases le_total u t with h1 | h1
      · rw [min_eq_left h1, max_eq_right (by linarith), abs_of_nonneg (by linarith)]
      · rw [min_eq_right h1, sub_self, abs_zero, max_eq_left (by linarith)]
    · intro s hs
      have := hs.2 u rfl
      exact max_le (abs_nonneg _) (le_trans (by linarith) (le_abs_self (t - s)))
  · have hlu := h u l rfl rfl
    show IsDist (some (l.eval L v)) (some (u.eval L v)) t (max (max 0 (t - u.eval L v)) (l.eval L v - t))
    generalize u.eval L v = u at *
    generalize l.eval L v = l at *
    refine ⟨⟨max l (min u t), ⟨fun a ha => (by cases ha; exact le_max_left _ _),
      fun a ha => (by cases ha; exact max_le hlu (min_le_left _ _))⟩, ?_⟩, ?_⟩
    · rcases le_total t l with h1 | h1
      · rw [min_eq_right (by linarith), max_eq_left h1, max_eq_left (a := (0 : K)) (b := t - u) (by linarith),
          max_eq_right (by linarith), abs_sub_comm, abs_of_nonneg (by linarith)]
      · rcases le_total u t with h2 | h2
        · rw [min_eq_left h2, max_eq_right hlu, max_eq_right (a := (0 : K)) (b := t - u) (by linarith), max_eq_left (by linarith),
            abs_of_nonneg (by linarith)]
        · rw [min_eq_right h2, max_eq_right h1, sub_self, abs_zero, max_eq_left (a := (0 : K)) (b := t - u) (by linarith),
            max_eq_left (by linarith)]
    · intro s hs
      have a := hs.1 l rfl
      have b := hs.2 u rfl
      refine max_le (max_le (abs_nonneg _) (le_trans (by linarith) (le_abs_self (t - s)))) ?_
      rw [abs_sub_comm]; exact le_trans (by linarith) (le_abs_self (s - t))

/-- a distance is 0 exactly if the bounds are met -/
theorem isDist_zero (lb ub : Option K) (t d : K) (h : IsDist lb ub t d) : 0 ≤ d ∧ (d = 0 ↔ Holds lb ub t) := by
  obtain ⟨⟨s, hs, hd⟩, hm⟩ := h
  refine ⟨by rw [← hd]; exact abs_nonneg _, fun h0 => ?_, fun ht => ?_⟩
  · rw [h0] at hd
    have : t = s := by have := abs_eq_zero.1 hd; linarith
    rw [this]; exact hs
  · refine le_antisymm ?_ (by rw [← hd]; exact abs_nonneg _)
    have := hm t ht
    rw [sub_self, abs_zero] at this
    exact this

/-- **C85** (L2 penalty).  With numerical bounds that do not contradict each other, the call returns for NONLINEAR_LS,
CONVEX_OVER_NONLINEAR and EXTERNAL costs, and at all values of all symbols the new cost is the old one plus `½ · weight · d²`, where
`d` is the distance to the bounds; it is 0 exactly where the constraint is met.  The cost stays well formed, so that further
penalties can be added. -/
theorem C85_l2 (L : Lang K (Fn K)) (hL : Means L) (e : E K) (w : K) (ub lb : Option K) (hb : ub ≠ none ∨ lb ≠ none)
    (hlu : ∀ u l, ub = some u → lb = some l → l ≤ u) (c : SC K (Fn K)) (hs : Shaped c) (ht : TakesL2 c) :
    ∃ c', formulateL2 e w (ub.map .const) (lb.map .const) c = .ok c' ∧ Shaped c' ∧ c'.kind = c.kind ∧
      ∀ (nx nu nz : Nat) (v : Env K), ∃ d, IsDist lb ub (e.eval L v) d ∧ (d = 0 ↔ Holds lb ub (e.eval L v)) ∧
        value L nx nu nz c' v = some ((value L nx nu nz c v).getD 0 + 1 / 2 * w * d ^ 2) := by
  have red : formulateL2 e w (ub.map .const) (lb.map .const) c = addL2 (violE e (ub.map .const) (lb.map .const)) w c := by
    rcases ub with _ | u <;> rcases lb with _ | l
    · rcases hb with h | h <;> exact absurd rfl h
    · rfl
    · rfl
    · show (if decide (u < l) = true then _ else _) = _
      rw [if_neg (by rw [decide_eq_true_eq]; exact not_lt.2 (hlu u l rfl rfl))]
      rfl
  obtain ⟨c', e1, s1, -, k1, v1⟩ := addL2_value L (violE e (ub.map .const) (lb.map .const)) w c hs ht
  refine ⟨c', red.trans e1, s1, k1, fun nx nu nz v => ?_⟩
  have hd := C85_violation L hL e (ub.map .const) (lb.map .const) v (by
    intro u' l' hu hl
    rcases ub with _ | u
    · cases hu
    · rcases lb with _ | l
      · cases hl
      · cases hu; cases hl; exact hlu u l rfl rfl)
  have m : ∀ q : Option K, (q.map (Ex.const (F := Fn K))).map (fun x => x.eval L v) = q := by
    intro q; cases q <;> rfl
  rw [m, m] at hd
  refine ⟨_, hd, (isDist_zero _ _ _ _ hd).2, ?_⟩
  rw [v1, pow_two]

/-- **C85** (exceptions).  The call returns exactly if a bound is given, the bounds do not contradict each other and the cost type
can take a penalty. -/
theorem C85_l2_returns (e : E K) (w : K) (ub lb : Option K) (c : SC K (Fn K)) :
    (formulateL2 e w (ub.map .const) (lb.map .const) c).isOk = true ↔
      (ub ≠ none ∨ lb ≠ none) ∧ (∀ u l, ub = some u → lb = some l → l ≤ u) ∧ TakesL2 c := by
  have hadd : ∀ viol : E K, (addL2 viol w c).isOk = true ↔ TakesL2 c := by
    intro viol
    unfold addL2 TakesL2
    dsimp only
    rcases hk : c.kind with _ | _ | _ | _ | _ | _ <;> dsimp only <;> simp [Out.isOk]
  rcases ub with _ | u <;> rcases lb with _ | l
  · exact ⟨fun x => (by cases x), fun x => by rcases x.1 with h | h <;> exact absurd rfl h⟩
  · show (addL2 _ w c).isOk = true ↔ _
    rw [hadd]
    exact ⟨fun x => ⟨Or.inr fun h => (by cases h), fun _ _ h => (by cases h), x⟩, fun x => x.2.2⟩
  · show (addL2 _ w c).isOk = true ↔ _
    rw [hadd]
    exact ⟨fun x => ⟨Or.inl fun h => (by cases h), fun _ _ _ h => (by cases h), x⟩, fun x => x.2.2⟩
  · show (if decide (u < l) = true then Out.raised c else addL2 _ w c).isOk = true ↔ _
    by_cases h : u < l
    · rw [if_pos (by rw [decide_eq_true_eq]; exact h)]
      exact ⟨fun x => (by cases x), fun x => absurd (x.2.1 u l rfl rfl) (not_le.2 h)⟩
    · rw [if_neg (by rw [decide_eq_true_eq]; exact h), hadd]
      exact ⟨fun x => ⟨Or.inl fun h => (by cases h), fun _ _ a b => by cases a; cases b; exact not_lt.1 h, x⟩, fun x => x.2.2⟩

/-! ### Huber penalties -/

/-- **C85** (Huber functions).  The one-sided penalty of `penalty_utils.py` is the Huber function of the violation of `u ≤ 0`, the
symmetric one that of the violation of `-1 ≤ u ≤ 1`: zero where the constraint holds, quadratic with Hessian `w` up to the
distance `2δ`, linear with slope `2wδ` beyond. -/
theorem C85_huber_fun (w δ u : K) (hδ : 0 < δ) :
    oneSided w δ u = huberOf w δ (max 0 u) ∧ symmetric w δ u = huberOf w δ (max 0 (|u| - 1)) :=
  ⟨oneSided_eq w δ u hδ, symmetric_eq w δ u hδ⟩

/-- **C85** (Huber functions vanish exactly on the feasible set). -/
theorem C85_huber_zero (w δ d : K) (hw : 0 < w) (hδ : 0 < δ) (hd : 0 ≤ d) : 0 ≤ huberOf w δ d ∧ (huberOf w δ d = 0 ↔ d = 0) := by
  unfold huberOf
  split
  · rename_i h
    refine ⟨by positivity, fun h0 => ?_, fun h0 => by rw [h0]; ring⟩
    by_contra hn
    have : 0 < d := lt_of_le_of_ne hd (Ne.symm hn)
    have : 0 < w / 2 * d ^ 2 := by positivity
    linarith
  · rename_i h
    have h := not_le.1 h
    have : 0 < 2 * w * δ * (d - δ) := mul_pos (by positivity) (by linarith)
    exact ⟨this.le, fun h0 => by linarith, fun h0 => by rw [h0] at h; linarith⟩

/-- **C85** (XGN Hessian of the one-sided penalty).  It lies between 0 and `w`, is `w` in the quadratic region, and the quadratic
model with this Hessian lies above the penalty everywhere, whereas its value and its slope are those of the penalty. -/
theorem C85_xgn (w δ u u' : K) (hw : 0 < w) (hδ : 0 < δ) :
    0 < oneXgn w δ 0 u ∧ oneXgn w δ 0 u ≤ w ∧ (0 < u → u < 2 * δ → oneXgn w δ 0 u = w)
    ∧ oneSided w δ u' ≤ oneSided w δ u + 1 / 2 * (huberGrad (2 * w * δ) δ (u - δ) + 2 * w * δ) * (u' - u)
        + 1 / 2 * oneXgn w δ 0 u * (u' - u) ^ 2 := by
  have e : oneXgn w δ 0 u = 1 / 2 * huberXgn (2 * w * δ) δ (u - δ) := by
    unfold oneXgn
    dsimp only
    rw [if_neg (lt_irrefl _)]
  have hx : 0 < huberXgn (2 * w * δ) δ (u - δ) ∧ huberXgn (2 * w * δ) δ (u - δ) ≤ 2 * w := by
    by_cases h : |u - δ| < δ
    · rw [xgn_in w δ _ hδ h]; exact ⟨by linarith, le_refl _⟩
    · have h := not_lt.1 h
      have hp : 0 < |u - δ| := lt_of_lt_of_le hδ h
      rw [xgn_out w δ _ hδ h]
      refine ⟨by positivity, ?_⟩
      rw [div_le_iff₀ hp]
      exact mul_le_mul_of_nonneg_left h (by linarith)
  refine ⟨by rw [e]; linarith [hx.1], by rw [e]; linarith [hx.2], fun h1 h2 => ?_, ?_⟩
  · rw [e, xgn_in w δ _ hδ (abs_lt.2 ⟨by linarith, by linarith⟩)]; ring
  · have := xgn_major w δ (u - δ) (u' - δ) hw.le hδ
    have q : u' - δ - (u - δ) = u' - u := by ring
    rw [q] at this
    unfold oneSided oneRaw
    rw [e]
    nlinarith [this]

/-- **C85** (lower limit of the Hessians).  With `min_hess > 0` neither Hessian of either penalty is smaller. -/
theorem C85_min_hess (w δ mh u : K) (h : 0 < mh) :
    mh ≤ oneHess w δ mh u ∧ mh ≤ oneXgn w δ mh u ∧ mh ≤ symHess w δ mh u ∧ mh ≤ symXgn w δ mh u := by
  unfold oneHess oneXgn symHess symXgn
  dsimp only
  rw [if_pos h, if_pos h, if_pos h, if_pos h]
  exact ⟨le_max_left _ _, le_max_left _ _, le_max_left _ _, le_max_left _ _⟩

/-- **C85** (Hessians).  The Hessian of the one-sided penalty is `w` inside the quadratic region and 0 outside; both Hessians of the
symmetric penalty are those of the one-sided penalty at the distance to the nearer bound, so `C85_xgn` holds for them too. -/
theorem C85_sym_hess (w δ mh u : K) (hδ : 0 < δ) :
    oneHess w δ 0 u = (if 0 < u ∧ u < 2 * δ then w else 0) ∧ symHess w δ mh u = oneHess w δ mh (|u| - 1)
      ∧ symXgn w δ mh u = oneXgn w δ mh (|u| - 1) := by
  have heven : ∀ τ v : K, huberHess τ δ (-v) = huberHess τ δ v := by
    intro τ v
    unfold huberHess
    rw [abs_neg]
  have hout : ∀ τ v : K, δ ≤ |v| → huberHess τ δ v = 0 := by
    intro τ v h
    unfold huberHess
    rw [if_neg (not_lt.2 h), mul_zero]
  have hgrad : ∀ τ v : K, huberGrad τ δ (-v) = -huberGrad τ δ v := by
    intro τ v
    unfold huberGrad
    rw [abs_neg]
    split
    · ring
    · rcases lt_trichotomy v 0 with h | h | h
      · rw [if_pos (by linarith), if_neg (by linarith), if_pos h]; ring
      · subst h; simp
      · rw [if_neg (by linarith), if_pos (by linarith), if_pos h]; ring
  have hxgn : ∀ τ v : K, huberXgn τ δ (-v) = huberXgn τ δ v := by
    intro τ v
    unfold huberXgn
    rw [heven, hgrad, neg_div_neg_eq]
    by_cases h : v = 0
    · subst h; simp
    · rw [if_neg h, if_neg (neg_ne_zero.2 h)]
  refine ⟨?_, ?_, ?_⟩
  · unfold oneHess huberHess
    dsimp only
    rw [if_neg (lt_irrefl _)]
    by_cases h : 0 < u ∧ u < 2 * δ
    · rw [if_pos h, if_pos (abs_lt.2 ⟨by linarith [h.1], by linarith [h.2]⟩)]
      field_simp
    · rw [if_neg h, if_neg]
      · ring
      · intro hc
        have := abs_lt.1 hc
        exact h ⟨by linarith [this.1], by linarith [this.2]⟩
  · unfold symHess oneHess
    dsimp only
    rcases le_or_gt 0 u with h | h
    · rw [abs_of_nonneg h, hout _ (u + (1 + δ)) (by rw [abs_of_nonneg (by linarith)]; linarith), add_zero,
        show u - (1 + δ) = u - 1 - δ by ring]
    · rw [abs_of_neg h, hout _ (u - (1 + δ)) (by rw [abs_of_neg (by linarith)]; linarith), zero_add,
        show -u - 1 - δ = -(u + (1 + δ)) by ring, heven]
  · unfold symXgn oneXgn
    dsimp only
    rcases le_or_gt 0 u with h | h
    · rw [abs_of_nonneg h, if_neg (not_lt.2 h)]
    · rw [abs_of_neg h, if_pos h, show -u - 1 - δ = -(u + 1 + δ) by ring, hxgn]

theorem huberPrep_keeps (L : Lang K (Fn K)) (xgn : Bool) (c : SC K (Fn K)) :
    (huberPrep L xgn c).kind = c.kind ∧ (huberPrep L xgn c).y = c.y ∧ (huberPrep L xgn c).yref = c.yref
      ∧ (huberPrep L xgn c).nr = c.nr ∧ (huberPrep L xgn c).psi = c.psi := by
  unfold huberPrep
  split
  · split <;> exact ⟨rfl, rfl, rfl, rfl, rfl⟩
  · exact ⟨rfl, rfl, rfl, rfl, rfl⟩

/-- one more argument of `ψ` with a function of it -/
theorem conl_push (L : Lang K (Fn K)) (c c' : SC K (Fn K)) (res pen : E K) (hk : c.kind = some .conl) (hs : Shaped c)
    (hk' : c'.kind = some .conl) (hy : c'.y = Vec.push c.y res) (hyr : c'.yref = Vec.push c.yref (.const 0))
    (hpen : ∀ i ≥ c.nr + 1, ¬ pen.occurs (.r i))
    (hp : c'.psi = some (match c.psi with
          | some ψ => .add ψ pen
          | none => pen)) (f : K → K)
    (hf : ∀ v : Env K, pen.eval L v = f (v (.r c.nr))) (hnr : c'.nr = c.nr + 1) :
    Shaped c' ∧ ∀ (nx nu nz : Nat) (v : Env K),
      value L nx nu nz c' v = some ((value L nx nu nz c v).getD 0 + f (res.eval L v)) := by
  obtain ⟨a, b, d⟩ := hs.2 hk
  constructor
  · refine ⟨fun x => (by rw [hk'] at x; cases x), fun _ => ⟨?_, ?_, ?_⟩⟩
    · rw [hy, hnr]; show c.y.len + 1 = _; rw [a]
    · rw [hyr, hnr]; show c.yref.len + 1 = _; rw [b]
    · intro ψ hψ i hi
      rw [hnr] at hi
      rcases hq : c.psi with _ | ψ₀
      · rw [hp, hq] at hψ; cases hψ; exact hpen i hi
      · rw [hp, hq] at hψ; cases hψ
        rintro (x | x)
        · exact d ψ₀ hq i (by omega) x
        · exact hpen i hi x
  · intro nx nu nz v
    have last : ((Vec.push c.y res).e c.nr).eval L v - ((Vec.push c.yref (.const 0)).e c.nr).eval L v = res.eval L v := by
      rw [← a, push_last, a, ← b, push_last]
      show res.eval L v - 0 = _
      rw [sub_zero]
    unfold value
    rw [hk, hk']
    dsimp only
    rw [hp, hy, hyr]
    have hpv : pen.eval L (v.withR fun i => ((Vec.push c.y res).e i).eval L v - ((Vec.push c.yref (.const 0)).e i).eval L v)
        = f (res.eval L v) := by
      rw [hf]
      show f (((Vec.push c.y res).e c.nr).eval L v - ((Vec.push c.yref (.const 0)).e c.nr).eval L v) = _
      rw [last]
    rcases hq : c.psi with _ | ψ₀
    · simp only [Option.map_some, Option.map_none, Option.getD_none]
      rw [hpv, zero_add]
    · simp only [Option.map_some, Option.getD_some]
      congr 1
      show ψ₀.eval L _ + pen.eval L _ = _
      rw [hpv]
      congr 1
      refine eval_congr L _ _ ψ₀ fun s hs => ?_
      cases s with
      | r i =>
        have hi : i < c.nr := by by_contra hn; exact d ψ₀ hq i (by omega) hs
        show (_ : K) = _
        simp only [Env.withR]
        rw [push_lt _ _ _ (by omega), push_lt _ _ _ (by omega)]
      | x i => rfl
      | u i => rfl
      | z i => rfl
      | p i => rfl

/-- `∀ i, ψ`'s new term contains only the new argument -/
theorem fn_occurs (f : Fn K) (n i : Nat) (hi : i ≥ n + 1) : ¬ (Ex.fn f (.sym (.r n)) (.const 0) : E K).occurs (.r i) := by
  rintro (x | x)
  · have : Sym.r n = .r i := x; cases this; omega
  · exact x

/-- **C85** (Huber penalty, upper bound only).  The call returns for a CONVEX_OVER_NONLINEAR cost, and the new cost is the old one
plus the Huber function, with Hessian `weight`, of the violation. -/
theorem C85_huber_upper (L : Lang K (Fn K)) (hL : Means L) (e : E K) (w u δ : K) (hδ : 0 < δ) (xgn : Bool) (mh : K)
    (c : SC K (Fn K)) (hk : c.kind = some .conl) (hs : Shaped c) :
    ∃ c', formulateHuber L e w (some u) none δ xgn mh c = .ok c' ∧ c'.kind = some .conl ∧ Shaped c' ∧
      ∀ (nx nu nz : Nat) (v : Env K),
        value L nx nu nz c' v = some ((value L nx nu nz c v).getD 0 + huberOf w δ (max 0 (e.eval L v - u))) := by
  obtain ⟨q1, q2, q3, q4, q5⟩ := huberPrep_keeps L xgn c
  have ht : huberTerm e w (some u) none δ mh (huberPrep L xgn c).nr
      = some (e.sub (.const u), .fn (.one w δ) (.sym (.r c.nr)) (.const 0), .fn (.oneHess w δ mh) (.sym (.r c.nr)) (.const 0),
        .fn (.oneXgn w δ mh) (.sym (.r c.nr)) (.const 0)) := by
    unfold huberTerm
    dsimp only
    rw [if_neg (not_le.2 hδ), q4]
  unfold formulateHuber
  rw [if_neg (by rintro ⟨x, -⟩; cases x), if_neg (by rw [hk]; exact fun x => x rfl)]
  dsimp only
  rw [ht]
  refine ⟨_, rfl, by rw [q1]; exact hk, ?_⟩
  have := conl_push L c (res := e.sub (.const u)) (pen := .fn (.one w δ) (.sym (.r c.nr)) (.const 0)) (hk := hk) (hs := hs)
    (c' := { huberPrep L xgn c with
        nr := (huberPrep L xgn c).nr + 1
        psi := some (match (huberPrep L xgn c).psi with
          | some ψ => .add ψ (.fn (.one w δ) (.sym (.r c.nr)) (.const 0))
          | none => .fn (.one w δ) (.sym (.r c.nr)) (.const 0))
        y := Vec.push (huberPrep L xgn c).y (e.sub (.const u))
        yref := Vec.push (huberPrep L xgn c).yref (.const 0)
        outer := match (huberPrep L xgn c).outer with
          | some H => some (blockDiag H (if xgn then .fn (.oneXgn w δ mh) (.sym (.r c.nr)) (.const 0)
              else .fn (.oneHess w δ mh) (.sym (.r c.nr)) (.const 0)))
          | none => if xgn then some ⟨1, 1, fun _ _ => .fn (.oneXgn w δ mh) (.sym (.r c.nr)) (.const 0)⟩ else none })
    (hk' := q1.trans hk) (hy := by rw [q2]) (hyr := by rw [q3]) (hpen := fun i hi => fn_occurs _ _ i hi) (hp := by rw [q5]) (f := oneSided w δ)
    (hf := fun v => hL.one w δ hδ.ne' _ _) (hnr := by rw [q4])
  refine ⟨this.1, fun nx nu nz v => ?_⟩
  refine (this.2 nx nu nz v).trans ?_
  rw [oneSided_eq w δ _ hδ, eval_sub]
  rfl

/-- **C85** (Huber penalty, both bounds).  For `lower_bound < upper_bound` the new cost is the old one plus a Huber function of the
distance to the bounds; its Hessian in the quadratic region is `4 · weight`, and the quadratic region ends at the distance
`(upper_bound - lower_bound) · δ`. -/
theorem C85_huber_both (L : Lang K (Fn K)) (hL : Means L) (e : E K) (w l u δ : K) (hδ : 0 < δ) (hlu : l < u) (xgn : Bool) (mh : K)
    (c : SC K (Fn K)) (hk : c.kind = some .conl) (hs : Shaped c) :
    ∃ c', formulateHuber L e w (some u) (some l) δ xgn mh c = .ok c' ∧ c'.kind = some .conl ∧ Shaped c' ∧
      ∀ (nx nu nz : Nat) (v : Env K), ∃ d, IsDist (some l) (some u) (e.eval L v) d ∧
        value L nx nu nz c' v = some ((value L nx nu nz c v).getD 0 + huberOf (4 * w) ((u - l) * δ / 2) d) := by
  obtain ⟨q1, q2, q3, q4, q5⟩ := huberPrep_keeps L xgn c
  have hw : 0 < u - l := by linarith
  have ht : huberTerm e w (some u) (some l) δ mh (huberPrep L xgn c).nr
      = some (.fn .div (.mul (.const 2) (e.sub (.const (l + 1 / 2 * (u - l))))) (.const (u - l)),
        .fn (.sym (w * (u - l) ^ 2) δ) (.sym (.r c.nr)) (.const 0), .fn (.symHess (w * (u - l) ^ 2) δ mh) (.sym (.r c.nr)) (.const 0),
        .fn (.symXgn (w * (u - l) ^ 2) δ mh) (.sym (.r c.nr)) (.const 0)) := by
    unfold huberTerm
    dsimp only
    rw [if_neg (by linarith), if_neg (not_le.2 hδ), q4]
  unfold formulateHuber
  rw [if_neg (by rintro ⟨x, -⟩; cases x), if_neg (by rw [hk]; exact fun x => x rfl)]
  dsimp only
  rw [ht]
  refine ⟨_, rfl, by rw [q1]; exact hk, ?_⟩
  have := conl_push L c (res := .fn .div (.mul (.const 2) (e.sub (.const (l + 1 / 2 * (u - l))))) (.const (u - l)))
    (pen := .fn (.sym (w * (u - l) ^ 2) δ) (.sym (.r c.nr)) (.const 0)) (hk := hk) (hs := hs)
    (c' := { huberPrep L xgn c with
        nr := (huberPrep L xgn c).nr + 1
        psi := some (match (huberPrep L xgn c).psi with
          | some ψ => .add ψ (.fn (.sym (w * (u - l) ^ 2) δ) (.sym (.r c.nr)) (.const 0))
          | none => .fn (.sym (w * (u - l) ^ 2) δ) (.sym (.r c.nr)) (.const 0))
        y := Vec.push (huberPrep L xgn c).y (.fn .div (.mul (.const 2) (e.sub (.const (l + 1 / 2 * (u - l))))) (.const (u - l)))
        yref := Vec.push (huberPrep L xgn c).yref (.const 0)
        outer := match (huberPrep L xgn c).outer with
          | some H => some (blockDiag H (if xgn then .fn (.symXgn (w * (u - l) ^ 2) δ mh) (.sym (.r c.nr)) (.const 0)
              else .fn (.symHess (w * (u - l) ^ 2) δ mh) (.sym (.r c.nr)) (.const 0)))
          | none => if xgn then some ⟨1, 1, fun _ _ => .fn (.symXgn (w * (u - l) ^ 2) δ mh) (.sym (.r c.nr)) (.const 0)⟩ else none })
    (hk' := q1.trans hk) (hy := by rw [q2]) (hyr := by rw [q3]) (hpen := fun i hi => fn_occurs _ _ i hi) (hp := by rw [q5]) (f := symmetric (w * (u - l) ^ 2) δ)
    (hf := fun v => hL.sym _ δ hδ.ne' _ _) (hnr := by rw [q4])
  refine ⟨this.1, fun nx nu nz v => ?_⟩
  refine ⟨viol2 l u (e.eval L v), ?_, ?_⟩
  · have := C85_violation L hL e (some (.const u)) (some (.const l)) v (by intro a b ha hb; cases ha; cases hb; exact hlu.le)
    rw [eval_violE L hL] at this
    exact this
  · refine (this.2 nx nu nz v).trans ?_
    show some (_ + symmetric (w * (u - l) ^ 2) δ (L.I .div (2 * (e.sub (.const (l + 1 / 2 * (u - l)))).eval L v) (u - l))) = _
    rw [hL.div _ _ hw.ne', eval_sub, symmetric_eq _ δ _ hδ]
    show some (_ + huberOf _ δ (max 0 (|2 * (e.eval L v - (l + 1 / 2 * (u - l))) / (u - l)| - 1))) = _
    rw [viol2_abs l u _ hlu, huberOf_scale w δ _ _ hw]

/-- **C85** (custom Hessian).  With the XGN option the custom Hessian of `ψ` has the size of its argument; it is the given one, or
else the exact one, on the former arguments, 0 in the new row and column and the XGN Hessian of the penalty in the corner. -/
theorem C85_huber_outer (L : Lang K (Fn K)) (hL : Means L) (e : E K) (w u δ : K) (hδ : 0 < δ) (mh : K) (c : SC K (Fn K))
    (hk : c.kind = some .conl) (ho : OuterOk c) (hn : c.outer = none → c.psi = none → c.nr = 0) :
    ∃ c' H, formulateHuber L e w (some u) none δ true mh c = .ok c' ∧ c'.nr = c.nr + 1 ∧ c'.outer = some H ∧ H.rows = c'.nr ∧
      H.cols = c'.nr ∧
      (∀ v : Env K, (H.e c.nr c.nr).eval L v = oneXgn w δ mh (v (.r c.nr))) ∧
      (∀ i < c.nr, ∀ v : Env K, (H.e i c.nr).eval L v = 0 ∧ (H.e c.nr i).eval L v = 0) ∧
      ∀ i < c.nr, ∀ j < c.nr, (∀ H₀, c.outer = some H₀ → H.e i j = H₀.e i j) ∧
        (c.outer = none → ∀ ψ, c.psi = some ψ → H.e i j = (ψ.diff L (.r i)).diff L (.r j)) := by
  obtain ⟨q1, q2, q3, q4, q5⟩ := huberPrep_keeps L true c
  have ht : huberTerm e w (some u) none δ mh (huberPrep L true c).nr
      = some (e.sub (.const u), .fn (.one w δ) (.sym (.r c.nr)) (.const 0), .fn (.oneHess w δ mh) (.sym (.r c.nr)) (.const 0),
        .fn (.oneXgn w δ mh) (.sym (.r c.nr)) (.const 0)) := by
    unfold huberTerm
    dsimp only
    rw [if_neg (not_le.2 hδ), q4]
  have hx : ∀ v : Env K, (Ex.fn (.oneXgn w δ mh) (.sym (.r c.nr)) (.const 0) : E K).eval L v = oneXgn w δ mh (v (.r c.nr)) :=
    fun v => hL.oneXgn w δ mh hδ.ne' _ _
  have blk : ∀ H₀ : Mat (E K), H₀.rows = c.nr → H₀.cols = c.nr → ∀ hx' : E K, (blockDiag H₀ hx').rows = c.nr + 1 ∧
      (blockDiag H₀ hx').cols = c.nr + 1 ∧ (blockDiag H₀ hx').e c.nr c.nr = hx' ∧
      (∀ i < c.nr, (blockDiag H₀ hx').e i c.nr = .const 0 ∧ (blockDiag H₀ hx').e c.nr i = .const 0) ∧
      ∀ i < c.nr, ∀ j < c.nr, (blockDiag H₀ hx').e i j = H₀.e i j := by
    intro H₀ hr hc hx'
    unfold blockDiag
    dsimp only
    rw [hr, hc]
    refine ⟨rfl, rfl, if_pos ⟨rfl, rfl⟩, fun i hi => ⟨?_, ?_⟩, fun i hi j hj => ?_⟩
    · rw [if_neg (by omega), if_neg (by omega)]
    · rw [if_neg (by omega), if_neg (by omega)]
    · rw [if_neg (by omega), if_pos ⟨hi, hj⟩]
  unfold formulateHuber
  rw [if_neg (by rintro ⟨x, -⟩; cases x), if_neg (by rw [hk]; exact fun x => x rfl)]
  dsimp only
  rw [ht]
  rcases hq : c.outer with _ | H₀
  · rcases hp : c.psi with _ | ψ
    · have hz := hn hq hp
      have hprep : (huberPrep L true c).outer = none := by
        unfold huberPrep; rw [hq, hp]; exact hq
      refine ⟨_, ⟨1, 1, fun _ _ => .fn (.oneXgn w δ mh) (.sym (.r c.nr)) (.const 0)⟩, rfl, by rw [q4], ?_, ?_, ?_, hx, ?_, ?_⟩
      · dsimp only; rw [hprep]; rfl
      · show 1 = _ + 1; rw [q4, hz]
      · show 1 = _ + 1; rw [q4, hz]
      · intro i hi; omega
      · intro i hi; omega
    · have hprep : (huberPrep L true c).outer = some (exactOuter L ψ c.nr) := by
        unfold huberPrep; rw [hq, hp]; rfl
      obtain ⟨b1, b2, b3, b4, b5⟩ := blk (exactOuter L ψ c.nr) rfl rfl (.fn (.oneXgn w δ mh) (.sym (.r c.nr)) (.const 0))
      refine ⟨_, blockDiag (exactOuter L ψ c.nr) (.fn (.oneXgn w δ mh) (.sym (.r c.nr)) (.const 0)), rfl, by rw [q4], ?_, ?_, ?_, ?_, ?_, ?_⟩
      · dsimp only; rw [hprep]; rfl
      · dsimp only; rw [q4]; exact b1
      · dsimp only; rw [q4]; exact b2
      · intro v; rw [b3]; exact hx v
      · intro i hi v; rw [(b4 i hi).1, (b4 i hi).2]; exact ⟨rfl, rfl⟩
      · intro i hi j hj
        refine ⟨fun _ h => (by cases h), fun _ ψ' h => ?_⟩
        cases h
        rw [b5 i hi j hj]
        rfl
  · have hprep : (huberPrep L true c).outer = some H₀ := by
      unfold huberPrep; rw [hq]; exact hq
    obtain ⟨b1, b2, b3, b4, b5⟩ := blk H₀ (ho H₀ hq).1 (ho H₀ hq).2 (.fn (.oneXgn w δ mh) (.sym (.r c.nr)) (.const 0))
    refine ⟨_, blockDiag H₀ (.fn (.oneXgn w δ mh) (.sym (.r c.nr)) (.const 0)), rfl, by rw [q4], ?_, ?_, ?_, ?_, ?_, ?_⟩
    · dsimp only; rw [hprep]; rfl
    · dsimp only; rw [q4]; exact b1
    · dsimp only; rw [q4]; exact b2
    · intro v; rw [b3]; exact hx v
    · intro i hi v; rw [(b4 i hi).1, (b4 i hi).2]; exact ⟨rfl, rfl⟩
    · intro i hi j hj
      refine ⟨fun H₁ h => ?_, fun h => (by cases h)⟩
      cases h
      exact b5 i hi j hj

/-! ### The feasibility problem -/

theorem exLt_numeric (c : Con K) (h : c.Numeric) : exLt c.ub c.lb = false := by
  obtain ⟨l, u, h1, h2, h3⟩ := h
  rw [h1, h2]
  exact decide_eq_false (not_lt.2 h3)

theorem viol_met (L : Lang K (Fn K)) (hL : Means L) (c : Con K) (v : Env K) (h : c.lb.eval L v ≤ c.ub.eval L v) :
    (violE c.e (some c.ub) (some c.lb)).eval L v = 0 ↔ c.Met L v := by
  have := C85_violation L hL c.e (some c.ub) (some c.lb) v (by intro a b ha hb; cases ha; cases hb; exact h)
  rw [(isDist_zero _ _ _ _ this).2]
  exact ⟨fun x => ⟨x.1 _ rfl, x.2 _ rfl⟩, fun x => ⟨fun a ha => (by cases ha; exact x.1), fun a ha => (by cases ha; exact x.2)⟩⟩

theorem sum_sq_zero {α : Type} (l : List α) (f : α → K) :
    0 ≤ (l.map fun k => 1 / 2 * f k ^ 2).sum ∧ ((l.map fun k => 1 / 2 * f k ^ 2).sum = 0 ↔ ∀ k ∈ l, f k = 0) := by
  induction l with
  | nil => exact ⟨le_refl _, fun _ k hk => (by cases hk), fun _ => rfl⟩
  | cons a l ih =>
    rw [List.map_cons, List.sum_cons]
    have h : 0 ≤ 1 / 2 * f a ^ 2 := by positivity
    refine ⟨by linarith [ih.1], fun h0 k hk => ?_, fun h0 => ?_⟩
    · rcases List.mem_cons.1 hk with rfl | hk
      · have : f k ^ 2 = 0 := by linarith [ih.1]
        exact pow_eq_zero_iff (two_ne_zero) |>.1 this
      · exact ih.2.1 (by linarith [ih.1]) k hk
    · rw [h0 a (List.mem_cons_self ..), ih.2.2 fun k hk => h0 k (List.mem_cons_of_mem _ hk)]
      ring

/-- penalties added to a zero cost -/
theorem penalise_zero (L : Lang K (Fn K)) (hL : Means L) (ks : List (Con K)) (hk : ∀ k ∈ ks, exLt k.ub k.lb = false)
    (hv : ∀ k ∈ ks, ∀ v : Env K, k.lb.eval L v ≤ k.ub.eval L v) (c : SC K (Fn K)) :
    ∃ c', penaliseAll ks (zeroCost c) = .ok c' ∧ ∀ (nx nu nz : Nat) (v : Env K), ∃ s, value L nx nu nz c' v = some s ∧ 0 ≤ s ∧
      (s = 0 ↔ ∀ k ∈ ks, k.Met L v) := by
  obtain ⟨c', e1, k1, -, v1⟩ := penaliseAll_value L ks hk (zeroCost c) ⟨fun _ => ⟨rfl, rfl, rfl⟩, fun x => (by cases x)⟩ (Or.inl rfl)
  refine ⟨c', e1, fun nx nu nz v => ?_⟩
  have h0 : (value L nx nu nz (zeroCost c) v).getD 0 = 0 := by
    show (1 / 2 : K) * ∑ i ∈ range 0, _ = 0
    rw [sum_range_zero, mul_zero]
  have hs : ∃ s, value L nx nu nz c' v = some s := by
    unfold value
    rw [k1]
    exact ⟨_, rfl⟩
  obtain ⟨s, hs⟩ := hs
  have := v1 nx nu nz v
  rw [hs, h0, zero_add] at this
  have q := sum_sq_zero ks fun k => (violE k.e (some k.ub) (some k.lb)).eval L v
  rw [← this] at q
  refine ⟨s, hs, q.1, q.2.trans ⟨fun h k hk => ?_, fun h k hk => ?_⟩⟩
  · exact (viol_met L hL k v (hv k hk v)).1 (h k hk)
  · exact (viol_met L hL k v (hv k hk v)).2 (h k hk)

theorem numeric_le (L : Lang K (Fn K)) (c : Con K) (h : c.Numeric) (v : Env K) : c.lb.eval L v ≤ c.ub.eval L v := by
  obtain ⟨l, u, h1, h2, h3⟩ := h
  rw [h1, h2]; exact h3

theorem phi_mem (s : StageCons K) (k : Con K) (hk : k ∈ phiList s) : ∃ c ∈ s.phi, k = { c with e := c.e.substR s.r } := by
  obtain ⟨c, hc, he⟩ := List.mem_map.1 hk
  exact ⟨c, hc, he.symm⟩

theorem phi_numeric (s : StageCons K) (h : s.Numeric) (k : Con K) (hk : k ∈ phiList s) : k.Numeric := by
  obtain ⟨c, hc, rfl⟩ := phi_mem s k hk
  exact h c (List.mem_append_right _ hc)

theorem phi_met (L : Lang K (Fn K)) (s : StageCons K) (v : Env K) :
    (∀ k ∈ phiList s, k.Met L v) ↔ ∀ c ∈ s.phi, c.MetPhi L s.r v := by
  constructor
  · intro h c hc
    have := h _ (List.mem_map.2 ⟨c, hc, rfl⟩)
    unfold Con.Met at this
    rw [eval_substR] at this
    exact this
  · intro h k hk
    obtain ⟨c, hc, rfl⟩ := phi_mem s k hk
    unfold Con.Met
    rw [eval_substR]
    exact h c hc

/-- **C85** (feasibility problem).  With numerical bounds and without keeping cost or initial state the translation returns, the new
description has no constraints, and at each of the three kinds of stages the new cost is nonnegative at all values of all symbols
and 0 exactly where the constraints of that stage, but the general linear ones, were met.  Missing: the general linear constraints
(see `C85_feasibility_linear_false`). -/
theorem C85_feasibility_partial (L : Lang K (Fn K)) (hL : Means L) (P : Prob K) (hp : P.cons.path.Numeric) (ht : P.cons.term.Numeric)
    (hi : P.cons.init.Numeric) (htu : P.cons.term.bu = []) :
    ∃ P', feasibility L false false false P = .ok P' ∧
      (∀ v, P'.cons.path.Met L v ∧ P'.cons.term.Met L v ∧ P'.cons.init.Met L v) ∧
      P'.o.np = P.o.np ∧ P'.o.pVals = P.o.pVals ∧
      ∀ (nx nu nz : Nat) (v : Env K),
        (∃ s, value L nx nu nz P'.o.c0 v = some s ∧ 0 ≤ s ∧
          (s = 0 ↔ ({ P.cons.init with bu := P.cons.path.bu } : StageCons K).MetButG L v))
        ∧ (∃ s, value L nx nu nz P'.o.cp v = some s ∧ 0 ≤ s ∧ (s = 0 ↔ P.cons.path.MetButG L v))
        ∧ ∃ s, value L nx nu nz P'.o.ce v = some s ∧ 0 ≤ s ∧ (s = 0 ↔ P.cons.term.MetButG L v) := by
  have n1 : ∀ k ∈ P.cons.path.bx ++ P.cons.path.bu ++ P.cons.path.h ++ phiList P.cons.path, k.Numeric := by
    intro k hk
    rcases List.mem_append.1 hk with hk | hk
    · exact hp k (List.mem_append_left _ hk)
    · exact phi_numeric _ hp k hk
  have n2 : ∀ k ∈ P.cons.term.bx ++ P.cons.term.h ++ phiList P.cons.term, k.Numeric := by
    intro k hk
    rcases List.mem_append.1 hk with hk | hk
    · refine ht k ?_
      rw [htu, List.append_nil]
      exact List.mem_append_left _ hk
    · exact phi_numeric _ ht k hk
  have n3 : ∀ k ∈ P.cons.path.bu ++ P.cons.init.h ++ P.cons.init.bx ++ phiList P.cons.init, k.Numeric := by
    intro k hk
    rcases List.mem_append.1 hk with hk | hk
    · rcases List.mem_append.1 hk with hk | hk
      · rcases List.mem_append.1 hk with hk | hk
        · exact hp k (List.mem_append_left _ (List.mem_append_left _ (List.mem_append_right _ hk)))
        · exact hi k (List.mem_append_left _ (List.mem_append_right _ hk))
      · exact hi k (List.mem_append_left _ (List.mem_append_left _ (List.mem_append_left _ hk)))
    · exact phi_numeric _ hi k hk
  obtain ⟨a, ea, va⟩ := penalise_zero L hL _ (fun k hk => exLt_numeric k (n1 k hk)) (fun k hk v => numeric_le L k (n1 k hk) v) P.o.cp
  obtain ⟨b, eb, vb⟩ := penalise_zero L hL _ (fun k hk => exLt_numeric k (n2 k hk)) (fun k hk v => numeric_le L k (n2 k hk) v) P.o.ce
  obtain ⟨d, ed, vd⟩ := penalise_zero L hL _ (fun k hk => exLt_numeric k (n3 k hk)) (fun k hk v => numeric_le L k (n3 k hk) v) P.o.c0
  have hnil : ∀ v, (StageCons.nil : StageCons K).Met L v := fun v =>
    ⟨⟨fun _ h => (by cases h), fun _ h => (by cases h), fun _ h => (by cases h), fun _ h => (by cases h)⟩, fun _ h => (by cases h)⟩
  refine ⟨⟨{ P.o with c0 := d, cp := a, ce := b }, removeAll false P.cons⟩, ?_, fun v => ⟨hnil v, hnil v, hnil v⟩, rfl, rfl,
    fun nx nu nz v => ⟨?_, ?_, ?_⟩⟩
  · unfold feasibility
    dsimp only
    rw [if_neg (by decide)]
    dsimp only
    rw [ea]
    dsimp only
    rw [eb]
    dsimp only
    rw [if_neg (fun x => (by cases x)), if_neg (fun x => (by cases x)), if_neg (fun x => (by cases x)), if_neg (fun x => (by cases x))]
    dsimp only
    rw [ed]
  · obtain ⟨s, h1, h2, h3⟩ := vd nx nu nz v
    refine ⟨s, h1, h2, h3.trans ?_⟩
    simp only [List.forall_mem_append, phi_met, StageCons.MetButG]
    tauto
  · obtain ⟨s, h1, h2, h3⟩ := va nx nu nz v
    refine ⟨s, h1, h2, h3.trans ?_⟩
    simp only [List.forall_mem_append, phi_met, StageCons.MetButG]
    tauto
  · obtain ⟨s, h1, h2, h3⟩ := vb nx nu nz v
    refine ⟨s, h1, h2, h3.trans ?_⟩
    simp only [List.forall_mem_append, phi_met, StageCons.MetButG, htu, List.not_mem_nil]
    tauto

theorem param_mem (n : Nat) (l : List (Con K)) (L : Lang K (Fn K)) (v : Env K) :
    (∀ k ∈ paramBounds n l, k.Met L v) ↔ ∀ i c, l[i]? = some c → c.e.eval L v = v (.p (n + i)) := by
  unfold paramBounds
  constructor
  · intro h i c hc
    have := h _ (List.mem_map.2 ⟨(c, i), List.mem_zipIdx_iff_getElem?.2 hc, rfl⟩)
    exact le_antisymm this.2 this.1
  · intro h k hk
    obtain ⟨⟨c, i⟩, hm, rfl⟩ := List.mem_map.1 hk
    have := h i c (List.mem_zipIdx_iff_getElem?.1 hm)
    exact ⟨this.ge, this.le⟩

/-- **C85** (feasibility problem with a parametric initial state).  The initial state becomes the last block of the parameters,
whose values are the former lower bounds; the initial cost is 0 exactly where the other constraints are met and the constrained
states have the values of these parameters. -/
theorem C85_feasibility_param_partial (L : Lang K (Fn K)) (hL : Means L) (P : Prob K) (hp : P.cons.path.Numeric)
    (ht : P.cons.term.Numeric) (hi : P.cons.init.Numeric) (htu : P.cons.term.bu = []) (hx : P.cons.hasX0 = true) :
    ∃ P', feasibility L false false true P = .ok P' ∧
      (∀ v, P'.cons.path.Met L v ∧ P'.cons.term.Met L v ∧ P'.cons.init.Met L v) ∧
      P'.o.np = P.o.np + P.cons.init.bx.length ∧
      (∃ vals, P'.o.pVals = P.o.pVals ++ vals ∧ vals.length = P.cons.init.bx.length ∧
        ∀ (i : Nat) (c : Con K) (l : K), P.cons.init.bx[i]? = some c → c.lb = .const l → vals[i]? = some l) ∧
      ∀ (nx nu nz : Nat) (v : Env K),
        (∃ s, value L nx nu nz P'.o.c0 v = some s ∧ 0 ≤ s ∧
          (s = 0 ↔ ({ P.cons.init with bu := P.cons.path.bu, bx := [] } : StageCons K).MetButG L v ∧
            ∀ i c, P.cons.init.bx[i]? = some c → c.e.eval L v = v (.p (P.o.np + i))))
        ∧ (∃ s, value L nx nu nz P'.o.cp v = some s ∧ 0 ≤ s ∧ (s = 0 ↔ P.cons.path.MetButG L v))
        ∧ ∃ s, value L nx nu nz P'.o.ce v = some s ∧ 0 ≤ s ∧ (s = 0 ↔ P.cons.term.MetButG L v) := by
  have n1 : ∀ k ∈ P.cons.path.bx ++ P.cons.path.bu ++ P.cons.path.h ++ phiList P.cons.path, k.Numeric := by
    intro k hk
    rcases List.mem_append.1 hk with hk | hk
    · exact hp k (List.mem_append_left _ hk)
    · exact phi_numeric _ hp k hk
  have n2 : ∀ k ∈ P.cons.term.bx ++ P.cons.term.h ++ phiList P.cons.term, k.Numeric := by
    intro k hk
    rcases List.mem_append.1 hk with hk | hk
    · refine ht k ?_
      rw [htu, List.append_nil]
      exact List.mem_append_left _ hk
    · exact phi_numeric _ ht k hk
  have n3 : ∀ k ∈ P.cons.path.bu ++ P.cons.init.h ++ paramBounds P.o.np P.cons.init.bx ++ phiList P.cons.init,
      exLt k.ub k.lb = false ∧ ∀ v : Env K, k.lb.eval L v ≤ k.ub.eval L v := by
    intro k hk
    rcases List.mem_append.1 hk with hk | hk
    · rcases List.mem_append.1 hk with hk | hk
      · have : k.Numeric := by
          rcases List.mem_append.1 hk with hk | hk
          · exact hp k (List.mem_append_left _ (List.mem_append_left _ (List.mem_append_right _ hk)))
          · exact hi k (List.mem_append_left _ (List.mem_append_right _ hk))
        exact ⟨exLt_numeric k this, numeric_le L k this⟩
      · obtain ⟨⟨c, i⟩, -, rfl⟩ := List.mem_map.1 hk
        exact ⟨rfl, fun _ => le_refl _⟩
    · have := phi_numeric _ hi k hk
      exact ⟨exLt_numeric k this, numeric_le L k this⟩
  obtain ⟨a, ea, va⟩ := penalise_zero L hL _ (fun k hk => exLt_numeric k (n1 k hk)) (fun k hk v => numeric_le L k (n1 k hk) v) P.o.cp
  obtain ⟨b, eb, vb⟩ := penalise_zero L hL _ (fun k hk => exLt_numeric k (n2 k hk)) (fun k hk v => numeric_le L k (n2 k hk) v) P.o.ce
  obtain ⟨d, ed, vd⟩ := penalise_zero L hL _ (fun k hk => (n3 k hk).1) (fun k hk v => (n3 k hk).2 v) P.o.c0
  have hnil : ∀ v, (StageCons.nil : StageCons K).Met L v := fun v =>
    ⟨⟨fun _ h => (by cases h), fun _ h => (by cases h), fun _ h => (by cases h), fun _ h => (by cases h)⟩, fun _ h => (by cases h)⟩
  refine ⟨⟨⟨P.o.nx, P.o.nu, P.o.nz, d, a, b, P.o.np + P.cons.init.bx.length, P.o.pVals ++ lbVals L P.cons.init.bx, P.o.npGlobal,
      P.o.pGlobalVals⟩, removeAll false P.cons⟩, ?_, fun v => ⟨hnil v, hnil v, hnil v⟩, rfl,
    ⟨_, rfl, List.length_map .., fun i c l hc hl => ?_⟩, fun nx nu nz v => ⟨?_, ?_, ?_⟩⟩
  · unfold feasibility
    dsimp only
    rw [if_neg (by decide)]
    dsimp only
    rw [ea]
    dsimp only
    rw [eb]
    dsimp only
    rw [hx, if_neg (by decide), if_neg (by decide), if_pos rfl, if_pos rfl]
    dsimp only
    rw [ed]
  · show (P.cons.init.bx.map _)[i]? = _
    rw [List.getElem?_map, hc, Option.map_some, hl]
    rfl
  · obtain ⟨s, h1, h2, h3⟩ := vd nx nu nz v
    refine ⟨s, h1, h2, h3.trans ?_⟩
    simp only [List.forall_mem_append, phi_met, StageCons.MetButG, param_mem, List.not_mem_nil]
    tauto
  · obtain ⟨s, h1, h2, h3⟩ := va nx nu nz v
    refine ⟨s, h1, h2, h3.trans ?_⟩
    simp only [List.forall_mem_append, phi_met, StageCons.MetButG]
    tauto
  · obtain ⟨s, h1, h2, h3⟩ := vb nx nu nz v
    refine ⟨s, h1, h2, h3.trans ?_⟩
    simp only [List.forall_mem_append, phi_met, StageCons.MetButG, htu, List.not_mem_nil]
    tauto

/-! ### What does not hold -/

/-- the functions of the penalties over the rationals; anything for quotients with denominator 0 (`q`) -/
def exLang (q : ℚ) : Lang ℚ (Fn ℚ) where
  I := fun f a b => match f with
    | .fmax => max a b
    | .div => if b = 0 then q else a / b
    | .one w δ => oneSided w δ a
    | .oneHess w δ mh => oneHess w δ mh a
    | .oneXgn w δ mh => oneXgn w δ mh a
    | .sym w δ => symmetric w δ a
    | .symHess w δ mh => symHess w δ mh a
    | .symXgn w δ mh => symXgn w δ mh a
    | .other _ => 0
  d1 := fun _ => .other 0
  d2 := fun _ => .other 0

theorem exLang_means (q : ℚ) : Means (exLang q) where
  fmax _ _ := rfl
  div _ _ h := if_neg h
  one _ _ _ _ _ := rfl
  sym _ _ _ _ _ := rfl
  oneXgn _ _ _ _ _ _ := rfl
  symXgn _ _ _ _ _ _ := rfl
  oneHess _ _ _ _ _ _ := rfl
  symHess _ _ _ _ _ _ := rfl

/-- a cost term without content, of given kind -/
def exSC (k : Kind) : SC ℚ (Fn ℚ) :=
  ⟨some k, .nil, .nil, .nil, .nil, .nil, .nil, 0, none, none, none, none⟩

def exV (t : ℚ) : Env ℚ
  | .x _ => t
  | _ => 0

def exVal (L : Lang ℚ (Fn ℚ)) (o : Out (SC ℚ (Fn ℚ))) (t : ℚ) : Option ℚ :=
  match o with
  | .ok c => value L 1 0 0 c (exV t)
  | .raised _ => none

/-- a sequence of calls -/
def Out.bind' (o : Out (SC ℚ (Fn ℚ))) (f : SC ℚ (Fn ℚ) → Out (SC ℚ (Fn ℚ))) : Out (SC ℚ (Fn ℚ)) :=
  match o with
  | .ok c => f c
  | .raised c => .raised c

/-- The weight of the Huber penalty of a constraint with two bounds is documented as the Hessian in the quadratic region; for
`-1 ≤ x ≤ 1` and weight 1 the cost at distance `1/2` is `1/2`, that of the Hessian `4 · weight`, and not `1/8`. -/
theorem C85_huber_weight_false : exVal (exLang 0) (formulateHuber (exLang 0) (.sym (.x 0)) 1 (some 1) (some (-1)) 1 false 0
    (exSC .conl)) (3 / 2) = some (1 / 2) ∧ huberOf 1 1 (1 / 2 : ℚ) = 1 / 8 := by decide +kernel

/-- A Huber penalty with equal bounds is accepted: the residual is a quotient with denominator 0 and the weight is 0.  Whatever
number the quotient is (7 here), the cost is 0 at a point that violates the constraint. -/
theorem C85_huber_equal_false : ∃ L, Means L ∧ exVal L (formulateHuber L (.sym (.x 0)) 1 (some 0) (some 0) 1 false 0
    (exSC .conl)) 5 = some 0 ∧ ¬ Holds (some 0) (some 0) (5 : ℚ) := by
  refine ⟨exLang 7, exLang_means 7, by decide +kernel, fun h => ?_⟩
  have := h.2 0 rfl
  norm_num at this

/-- A Huber penalty with only a lower bound raises an exception, after the custom Hessian of the cost was set. -/
theorem C85_huber_lower_false : ∃ c : SC ℚ (Fn ℚ), c.kind = some .conl ∧ c.outer.isSome = false ∧
    (formulateHuber (exLang 0) (.sym (.x 0)) 1 none (some 0) 1 true 0 c).isOk = false ∧
    (formulateHuber (exLang 0) (.sym (.x 0)) 1 none (some 0) 1 true 0 c).st.outer.isSome = true :=
  ⟨{ exSC .conl with nr := 1, psi := some (.sym (.r 0)) }, by decide +kernel⟩

/-- An L2 penalty for a LINEAR_LS cost raises an exception and has made the reference longer. -/
theorem C85_l2_atomic_false : (formulateL2 (.sym (.x 0)) 1 (some (.const 1)) none (exSC .linearLs)).isOk = false ∧
    (formulateL2 (.sym (.x 0)) 1 (some (.const 1)) none (exSC .linearLs)).st.yref.len = 1 ∧ (exSC .linearLs).yref.len = 0 := by
  decide +kernel

/-- After a Huber penalty with XGN Hessian an L2 penalty leaves the custom Hessian of `ψ` with the former size. -/
theorem C85_outer_false :
    (Out.bind' (formulateHuber (exLang 0) (.sym (.x 0)) 1 (some 1) none 1 true 0 (exSC .conl))
      (formulateL2 (.sym (.x 0)) 1 (some (.const 1)) none)).isOk = true ∧
    (Out.bind' (formulateHuber (exLang 0) (.sym (.x 0)) 1 (some 1) none 1 true 0 (exSC .conl))
      (formulateL2 (.sym (.x 0)) 1 (some (.const 1)) none)).st.nr = 2 ∧
    ((Out.bind' (formulateHuber (exLang 0) (.sym (.x 0)) 1 (some 1) none 1 true 0 (exSC .conl))
      (formulateL2 (.sym (.x 0)) 1 (some (.const 1)) none)).st.outer.map fun H => (H.rows, H.cols)) = some (1, 1) := by
  decide +kernel

/-- a description with the path constraints `0 ≤ x ≤ 1`, an initial state 2 and a general linear constraint `0 ≤ x - u ≤ 0` -/
def exProb : Prob ℚ where
  o := ⟨1, 1, 0, exSC .linearLs, exSC .linearLs, exSC .linearLs, 0, [], 0, []⟩
  cons := {
    path := { (StageCons.nil : StageCons ℚ) with
      bx := [⟨.sym (.x 0), .const 0, .const 1⟩]
      phi := [⟨.mul (.sym (.r 0)) (.sym (.r 0)), .const 0, .const 9⟩]
      r := fun _ => .sym (.x 0)
      g := [⟨.add (.sym (.x 0)) (.mul (.const (-1)) (.sym (.u 0))), .const 0, .const 0⟩] }
    term := .nil
    init := { (StageCons.nil : StageCons ℚ) with bx := [⟨.sym (.x 0), .const 2, .const 2⟩] }
    hasX0 := true }

def pathVal (L : Lang ℚ (Fn ℚ)) (o : Out (Prob ℚ)) (t : ℚ) : Option ℚ :=
  match o with
  | .ok P => value L 1 1 0 P.o.cp (exV t)
  | .raised _ => none

/-- General linear constraints are removed without a penalty: the cost of the feasibility problem is 0 at a point that violates
one. -/
theorem C85_feasibility_linear_false : pathVal (exLang 0) (feasibility (exLang 0) false false false exProb) 1 = some 0 ∧
    ¬ exProb.cons.path.Met (exLang 0) (exV 1) := by
  refine ⟨by decide +kernel, fun h => ?_⟩
  have : (1 : ℚ) + -1 * 0 ≤ 0 := (h.2 _ (List.mem_singleton.2 rfl)).2
  norm_num at this

/-- `augment_with_t0_param` adds a value to the global parameters, although the parameter is stage-wise. -/
theorem C85_t0_false : ∃ o : Ocp ℚ (Fn ℚ), o.pVals.length = o.np ∧ o.pGlobalVals.length = o.npGlobal ∧
    (augmentT0 o).pVals.length = (augmentT0 o).np ∧ (augmentT0 o).pGlobalVals.length ≠ (augmentT0 o).npGlobal :=
  ⟨exProb.o, by decide +kernel⟩

/-! ### The hypotheses are met -/

/-- an L2 penalty `3/2 (x - 1)²` at `x = 3` on NONLINEAR_LS, CONVEX_OVER_NONLINEAR and EXTERNAL costs -/
example : exVal (exLang 0) (formulateL2 (.sym (.x 0)) 3 (some (.const 1)) none (exSC .nonlinearLs)) 3 = some 6
    ∧ exVal (exLang 0) (formulateL2 (.sym (.x 0)) 3 (some (.const 1)) none (exSC .conl)) 3 = some 6
    ∧ exVal (exLang 0) (formulateL2 (.sym (.x 0)) 3 (some (.const 1)) (some (.const (-1))) (exSC .external)) (-3) = some 6 := by
  decide +kernel

example (k : Kind) : Shaped (exSC k) :=
  ⟨fun _ => ⟨rfl, rfl, rfl⟩, fun _ => ⟨rfl, rfl, fun _ h => (by cases h)⟩⟩

/-- two Huber penalties on one cost: `1/2·1 + 2·1·1·(4-1)` at `x = 4` -/
example : exVal (exLang 0) (Out.bind' (formulateHuber (exLang 0) (.sym (.x 0)) 1 (some 3) none 1 false 0 (exSC .conl))
    (formulateHuber (exLang 0) (.sym (.x 0)) 1 (some 0) none 1 true 0)) 4 = some (13 / 2) := by decide +kernel

/-- the feasibility problem of the example: path cost `½(2-1)²` at `x = 2`, and the hypotheses of the theorems -/
example : pathVal (exLang 0) (feasibility (exLang 0) false false true exProb) 2 = some (1 / 2) := by decide +kernel

example : exProb.cons.path.Numeric ∧ exProb.cons.term.Numeric ∧ exProb.cons.init.Numeric ∧ exProb.cons.term.bu = []
    ∧ exProb.cons.hasX0 = true := by
  refine ⟨fun c hc => ?_, fun c hc => ?_, fun c hc => ?_, rfl, rfl⟩
  · rcases List.mem_cons.1 (show c ∈ [_, _] from hc) with rfl | hc
    · exact ⟨0, 1, rfl, rfl, by norm_num⟩
    · cases List.mem_singleton.1 hc; exact ⟨0, 9, rfl, rfl, by norm_num⟩
  · cases hc
  · cases List.mem_singleton.1 (show c ∈ [_] from hc); exact ⟨2, 2, rfl, rfl, le_refl _⟩

/-- a cost with `ψ = r₀²` and without custom Hessian meets the hypotheses of `C85_huber_outer` -/
example : OuterOk ({ exSC .conl with nr := 1, psi := some (.mul (.sym (.r 0)) (.sym (.r 0))) } : SC ℚ (Fn ℚ)) :=
  fun _ h => (by cases h)

end Acados.Penalty
