import Verif.Model.Funnel
import Mathlib.Tactic.Linarith
import Mathlib.Tactic.Positivity
import Mathlib.Tactic.FieldSimp
import Mathlib.Tactic.NormNum
import Mathlib.Algebra.Order.Archimedean.Basic
/-! Helper lemmas for the funnel globalization. -/
namespace Acados.Funnel

variable {K : Type*} [Field K] [LinearOrder K] [IsStrictOrderedRing K]

@[simp] theorem lit_zero (d : Nat) : (lit 0 d : K) = 0 := by simp [lit]
@[simp] theorem lit_one_one : (lit 1 1 : K) = 1 := by simp [lit]
theorem lit_pos {n d : Nat} (hn : 0 < n) (hd : 0 < d) : (0 : K) < lit n d := by
  unfold lit; positivity

/-- everything the setters guarantee -/
structure Valid (o : Opts K) : Prop where
  inc : 1 < o.increaseFactor
  ub : 0 < o.upperBound
  sd0 : 0 < o.sufficientDecrease
  sd1 : o.sufficientDecrease < 1
  k0 : 0 < o.kappa
  k1 : o.kappa < 1
  fs0 : 0 < o.fractionSwitching
  fs1 : o.fractionSwitching < 1
  ip0 : 0 ≤ o.initialPenalty
  ip1 : o.initialPenalty ≤ 1
  pc : o.penaltyContraction = 1 / 2
  pe : o.penaltyEta = 1 / 1000000

theorem valid_default : Valid (Opts.default : Opts K) := by
  constructor <;> simp [Opts.default, lit] <;> norm_num

theorem valid_set {o o' : Opts K} (h : Valid o) (s : OptSet K) (hs : o.set s = some o') :
    Valid o' := by
  cases s <;> simp only [Opts.set, lit_zero, lit_one_one] at hs
  all_goals first
    | (split at hs
       · simp at hs
       · next hc =>
         simp only [Option.some.injEq] at hs
         subst hs
         try simp only [not_or, not_le, not_lt, ge_iff_le, gt_iff_lt] at hc
         constructor
         all_goals first
           | exact h.inc | exact h.ub | exact h.sd0 | exact h.sd1 | exact h.k0 | exact h.k1
           | exact h.fs0 | exact h.fs1 | exact h.ip0 | exact h.ip1 | exact h.pc | exact h.pe
           | exact hc | exact hc.1 | exact hc.2)
    | (simp only [Option.some.injEq] at hs
       subst hs
       exact ⟨h.inc, h.ub, h.sd0, h.sd1, h.k0, h.k1, h.fs0, h.fs1, h.ip0, h.ip1, h.pc, h.pe⟩)

theorem valid_setAll {o o' : Opts K} (h : Valid o) (l : List (OptSet K))
    (hs : o.setAll l = some o') : Valid o' := by
  induction l generalizing o with
  | nil => simp only [Opts.setAll, Option.some.injEq] at hs; exact hs ▸ h
  | cons s t ih =>
    simp only [Opts.setAll] at hs
    cases hset : o.set s with
    | none => simp [hset] at hs
    | some o1 => rw [hset] at hs; exact ih (valid_set h s hset) hs

/-- contraction factor of the funnel per decrease -/
def rho (o : Opts K) : K := o.kappa + (1 - o.kappa) * o.sufficientDecrease

theorem rho_lt_one {o : Opts K} (h : Valid o) : rho o < 1 := by
  unfold rho; nlinarith [h.k0, h.k1, h.sd0, h.sd1]

theorem rho_pos {o : Opts K} (h : Valid o) : 0 < rho o := by
  unfold rho; nlinarith [h.k0, h.k1, h.sd0, h.sd1]

/-- effect of a successful acceptance test on width -/
inductive AccKind (o : Opts K) (c : Ctx K) (m : Mem K) (alpha tc ti : K) (m' : Mem K) : Prop where
  | f (hin : ti ≤ m.width) (hpm : m.penaltyMode = false) (hmo : o.meritOnly = false)
      (hsw : o.fractionSwitching * c.predInf ≤ alpha * c.predObj)
      (har : o.epsSufficientDescent * alpha * max 0 (c.predObj - 1 / 1000000000)
        ≤ c.curCost - tc)
      (hm : m' = { m with iterType := 'f' })
  | h (hin : ti ≤ m.width) (hpm : m.penaltyMode = false) (hmo : o.meritOnly = false)
      (hsw : alpha * c.predObj < o.fractionSwitching * c.predInf)
      (hsd : ti ≤ o.sufficientDecrease * m.width)
      (hm : m' = { m with iterType := 'h', width := (1 - o.kappa) * ti + o.kappa * m.width })
  | b (hin : ti ≤ m.width) (hpm : m.penaltyMode = false) (hmo : o.meritOnly = false)
      (hsw : alpha * c.predObj < o.fractionSwitching * c.predInf)
      (hsd : o.sufficientDecrease * m.width < ti) (hlt : ti < c.curInf)
      (har : o.epsSufficientDescent * alpha *
          max 0 (c.penalty * c.predObj + c.predInf - 1 / 1000000000)
        ≤ c.curMerit - (c.penalty * tc + ti))
      (hm : m' = { m with iterType := 'b', penaltyMode := true })
  | p (hin : o.meritOnly = true ∨ ti ≤ m.width) (hpm : m.penaltyMode = true ∨ o.meritOnly = true)
      (har : o.epsSufficientDescent * alpha *
          max 0 (c.penalty * c.predObj + c.predInf - 1 / 1000000000)
        ≤ c.curMerit - (c.penalty * tc + ti))
      (hsd : o.sufficientDecrease * m.width < ti)
      (hm : m' = { m with iterType := 'p', penaltyMode := true })
  | pd (hin : o.meritOnly = true ∨ ti ≤ m.width) (hpm : m.penaltyMode = true ∨ o.meritOnly = true)
      (har : o.epsSufficientDescent * alpha *
          max 0 (c.penalty * c.predObj + c.predInf - 1 / 1000000000)
        ≤ c.curMerit - (c.penalty * tc + ti))
      (hsd : ti ≤ o.sufficientDecrease * m.width)
      (hm : m' = { m with iterType := 'p', penaltyMode := false,
                          width := (1 - o.kappa) * ti + o.kappa * m.width })

theorem acceptable_iff (o : Opts K) (c : Ctx K) (m m' : Mem K) (alpha tc ti : K) :
    acceptable o c m alpha tc ti = (true, m') ↔ AccKind o c m alpha tc ti m' := by
  have hl : (lit 1 1000000000 : K) = 1 / 1000000000 := by simp [lit]
  obtain ⟨w, it, pm, l1, pp, al⟩ := m
  constructor
  · intro h
    unfold acceptable at h
    simp only [insideFunnel, switchingOk, armijoOk, sufficientDecreaseOk, decreaseFunnel,
      lit_zero, lit_one_one, hl, cmax_eq_max, ge_iff_le] at h
    cases hmo : o.meritOnly <;> cases pm <;>
      simp only [hmo, Bool.false_eq_true, if_false, if_true, Bool.false_or, Bool.true_or,
        Bool.not_false, Bool.not_true, decide_eq_true_eq, Bool.and_eq_true] at h
    · split at h
      · next hin =>
        split at h
        · next hsw =>
          split at h
          · next har =>
            simp only [Prod.mk.injEq, true_and] at h
            exact .f hin rfl hmo hsw har h.symm
          · simp at h
        · next hsw =>
          split at h
          · next hsd =>
            simp only [Prod.mk.injEq, true_and] at h
            exact .h hin rfl hmo (not_le.1 hsw) hsd h.symm
          · next hsd =>
            split at h
            · next hb =>
              simp only [Prod.mk.injEq, true_and] at h
              exact .b hin rfl hmo (not_le.1 hsw) (not_le.1 hsd) hb.1 hb.2 h.symm
            · simp at h
      · simp at h
    · split at h
      · next hin =>
        split at h
        · next har =>
          split at h
          · next hsd =>
            simp only [Prod.mk.injEq, true_and] at h
            exact .pd (.inr hin) (.inl rfl) har hsd h.symm
          · next hsd =>
            simp only [Prod.mk.injEq, true_and] at h
            exact .p (.inr hin) (.inl rfl) har (not_le.1 hsd) h.symm
        · simp at h
      · simp at h
    all_goals
      split at h
      · next har =>
        split at h
        · next hsd =>
          simp only [Prod.mk.injEq, true_and] at h
          exact .pd (.inl hmo) (.inr hmo) har hsd h.symm
        · next hsd =>
          simp only [Prod.mk.injEq, true_and] at h
          exact .p (.inl hmo) (.inr hmo) har (not_le.1 hsd) h.symm
      · simp at h
  · intro h
    unfold acceptable
    simp only [insideFunnel, switchingOk, armijoOk, sufficientDecreaseOk, decreaseFunnel,
      lit_zero, lit_one_one, hl, cmax_eq_max, ge_iff_le]
    cases h with
    | f hin hpm hmo hsw har hm =>
      simp only at hin hpm hm
      simp [-one_div, hin, hpm, hmo, hsw, har, hm]
    | h hin hpm hmo hsw hsd hm =>
      simp only at hin hpm hm hsd
      simp [-one_div, hin, hpm, hmo, not_le.2 hsw, hsd, hm]
    | b hin hpm hmo hsw hsd hlt har hm =>
      simp only at hin hpm hm hsd
      simp [-one_div, -not_le, hin, hpm, hmo, not_le.2 hsw, not_le.2 hsd, hlt, har, hm]
    | p hin hpm har hsd hm =>
      simp only at hin hpm hm hsd
      cases hmo : o.meritOnly
      · simp only [hmo, Bool.false_eq_true, false_or, or_false] at hin hpm
        simp [-one_div, -not_le, hin, hpm, not_le.2 hsd, har, hm]
      · simp [-one_div, -not_le, not_le.2 hsd, har, hm]
    | pd hin hpm har hsd hm =>
      simp only at hin hpm hm hsd
      cases hmo : o.meritOnly
      · simp only [hmo, Bool.false_eq_true, false_or, or_false] at hin hpm
        simp [-one_div, hin, hpm, hsd, har, hm]
      · simp [-one_div, hsd, har, hm]

/-- a rejected trial changes at most the penalty-mode flag (and only to `true` in merit-only mode) -/
theorem reject_mem (o : Opts K) (c : Ctx K) (m m' : Mem K) (alpha tc ti : K)
    (h : acceptable o c m alpha tc ti = (false, m')) :
    m' = if o.meritOnly then { m with penaltyMode := true } else m := by
  unfold acceptable at h
  simp only at h
  generalize hm0 : (if o.meritOnly then { m with penaltyMode := true } else m) = m0 at h ⊢
  split at h
  · split at h
    · split at h
      · split at h
        · simp at h
        · simp only [Prod.mk.injEq, true_and] at h; exact h.symm
      · split at h
        · simp at h
        · split at h
          · simp at h
          · simp only [Prod.mk.injEq, true_and] at h; exact h.symm
    · split at h
      · split at h <;> simp at h
      · simp only [Prod.mk.injEq, true_and] at h; exact h.symm
  · simp only [Prod.mk.injEq, true_and] at h; exact h.symm

/-- Everything that can be said about a finished line search loop. -/
theorem lsLoop_spec {X : Type*} (o : Opts K) (c : Ctx K) (trial : Nat → K → Trial X K)
    (n : NlpMem K) (fuel : Nat) : ∀ (j : Nat) (alpha : K) (m : Mem K) (r : Result X K),
    lsLoop o c trial n fuel j alpha m = some r →
    (∃ i, i < fuel ∧
      let al := alpha * o.alphaReduction ^ i
      let t := trial (j + i) al
      (∀ k, k < i → o.alphaMin ≤ alpha * o.alphaReduction ^ k) ∧ r.tmp = t.x ∧
      ((r.status = .success ∧ r.step = some al ∧ r.nlp = { n with costValue := t.cost } ∧
          ∃ m1 m2, (m1 = m ∨ m1 = if o.meritOnly then { m with penaltyMode := true } else m) ∧
            acceptable o c m1 al t.cost t.infeas = (true, m2) ∧
            r.mem = { m2 with alpha := al, l1 := t.infeas }) ∨
       (r.status = .minStep ∧ r.step = none ∧ al < o.alphaMin ∧ r.nlp = n ∧
          r.mem = if o.meritOnly then { m with penaltyMode := true } else m))) := by
  induction fuel with
  | zero => intro j alpha m r h; simp [lsLoop] at h
  | succ f ih =>
    intro j alpha m r h
    simp only [lsLoop] at h
    rcases hacc : acceptable o c m alpha (trial j alpha).cost (trial j alpha).infeas with ⟨b, m'⟩
    rw [hacc] at h
    cases b with
    | true =>
      simp only [Option.some.injEq] at h
      refine ⟨0, by omega, ?_⟩
      simp only [pow_zero, mul_one, Nat.add_zero]
      refine ⟨by intro k hk; omega, by rw [← h], .inl ?_⟩
      exact ⟨by rw [← h], by rw [← h], by rw [← h], m, m', .inl rfl, hacc, by rw [← h]⟩
    | false =>
      have hm' := reject_mem o c m m' _ _ _ hacc
      simp only at h
      split at h
      · next hlt =>
        simp only [Option.some.injEq] at h
        refine ⟨0, by omega, ?_⟩
        simp only [pow_zero, mul_one, Nat.add_zero]
        refine ⟨by intro k hk; omega, by rw [← h], .inr ?_⟩
        exact ⟨by rw [← h], by rw [← h], hlt, by rw [← h], by rw [← h]; exact hm'⟩
      · next hge =>
        obtain ⟨i, hi, hk, htmp, hrest⟩ := ih (j + 1) (alpha * o.alphaReduction) m' r h
        refine ⟨i + 1, by omega, ?_⟩
        have e1 : alpha * o.alphaReduction ^ (i + 1) = alpha * o.alphaReduction * o.alphaReduction ^ i := by
          ring
        have e2 : j + (i + 1) = j + 1 + i := by omega
        simp only [e1, e2]
        refine ⟨?_, htmp, ?_⟩
        · intro k hk'
          cases k with
          | zero => simpa using not_lt.1 hge
          | succ k =>
            have := hk k (by omega)
            have e3 : alpha * o.alphaReduction ^ (k + 1) = alpha * o.alphaReduction * o.alphaReduction ^ k := by ring
            rw [e3]; exact this
        · rcases hrest with ⟨h1, h2, h3, m1, m2, hm1, ha, hr⟩ | ⟨h1, h2, h3, h4, h5⟩
          · refine .inl ⟨h1, h2, h3, m1, m2, ?_, ha, hr⟩
            right
            rcases hm1 with rfl | rfl
            · exact hm'
            · rw [hm']; split <;> rfl
          · refine .inr ⟨h1, h2, h3, h4, ?_⟩
            rw [h5, hm']; split <;> rfl

/-- termination for any number type: enough fuel once the `n`-th step size is below `alphaMin` -/
theorem lsLoop_terminates {D : Type*} [Add D] [Sub D] [Mul D] [Div D] [Neg D] [LT D] [LE D]
    [DecidableLT D] [DecidableLE D] [NatCast D] {X : Type*} (o : Opts D) (c : Ctx D)
    (trial : Nat → D → Trial X D) (nm : NlpMem D) (n : Nat) :
    ∀ (j : Nat) (alpha : D) (m : Mem D) (fuel : Nat),
    (fun a => a * o.alphaReduction)^[n] alpha < o.alphaMin → n < fuel →
    ∃ r, lsLoop o c trial nm fuel j alpha m = some r := by
  induction n with
  | zero =>
    intro j alpha m fuel h hf
    obtain ⟨f, rfl⟩ : ∃ f, fuel = f + 1 := ⟨fuel - 1, by omega⟩
    simp only [Function.iterate_zero, id_eq] at h
    simp only [lsLoop]
    rcases acceptable o c m alpha (trial j alpha).cost (trial j alpha).infeas with ⟨b, m'⟩
    cases b
    · simp [h]
    · simp
  | succ n ih =>
    intro j alpha m fuel h hf
    obtain ⟨f, rfl⟩ : ∃ f, fuel = f + 1 := ⟨fuel - 1, by omega⟩
    simp only [lsLoop]
    rcases acceptable o c m alpha (trial j alpha).cost (trial j alpha).infeas with ⟨b, m'⟩
    cases b
    · simp only
      split
      · exact ⟨_, rfl⟩
      · exact ih (j + 1) _ m' f h (by omega)
    · exact ⟨_, rfl⟩

theorem iterate_mul_pow (r a : K) (n : Nat) : (fun x => x * r)^[n] a = a * r ^ n := by
  induction n generalizing a with
  | zero => simp
  | succ n ih => rw [Function.iterate_succ_apply, ih]; ring

/-- a step that was accepted -/
theorem findAcceptable_success {X : Type*} {o : Opts K} {s s' : St X K} {po pi : K}
    {trial : Nat → K → Trial X K} {fuel : Nat}
    (h : findAcceptable o s po pi trial fuel = some (.success, s')) :
    ∃ i m1 m2, 
      (m1 = { s.mem with penalty := updatePenalty o s.nlp.objMult po pi } ∨
        m1 = if o.meritOnly then
          { s.mem with penalty := updatePenalty o s.nlp.objMult po pi, penaltyMode := true }
          else { s.mem with penalty := updatePenalty o s.nlp.objMult po pi }) ∧
      AccKind o (startCtx o s.mem s.nlp po pi) m1 (o.alphaReduction ^ i)
        (trial i (o.alphaReduction ^ i)).cost (trial i (o.alphaReduction ^ i)).infeas m2 ∧
      s' = { x := (trial i (o.alphaReduction ^ i)).x
             mem := { m2 with alpha := o.alphaReduction ^ i
                              l1 := (trial i (o.alphaReduction ^ i)).infeas }
             nlp := { costValue := (trial i (o.alphaReduction ^ i)).cost
                      objMult := updatePenalty o s.nlp.objMult po pi } } := by
  unfold findAcceptable lineSearch at h
  simp only at h
  split at h
  · simp at h
  · next r hr =>
    simp only [Option.some.injEq, Prod.mk.injEq] at h
    obtain ⟨hst, hs'⟩ := h
    obtain ⟨i, _, _, htmp, hrest⟩ := lsLoop_spec o _ trial _ fuel 0 _ _ r hr
    simp only [lit_one_one, one_mul, Nat.zero_add] at htmp hrest
    rcases hrest with ⟨_, _, hn, m1, m2, hm1, hacc, hmem⟩ | ⟨hst', _⟩
    · refine ⟨i, m1, m2, hm1, (acceptable_iff ..).1 hacc, ?_⟩
      rw [← hs', hst, hn, hmem, htmp]
      simp [startCtx]
    · rw [hst'] at hst; cases hst

theorem findAcceptable_fail {X : Type*} {o : Opts K} {s s' : St X K} {po pi : K}
    {trial : Nat → K → Trial X K} {fuel : Nat} {st : Status}
    (h : findAcceptable o s po pi trial fuel = some (st, s')) (hne : st ≠ .success) :
    st = .minStep ∧ s'.x = s.x ∧ s'.nlp.costValue = s.nlp.costValue ∧
      s'.mem.width = s.mem.width ∧ s'.mem.l1 = s.mem.l1 := by
  unfold findAcceptable lineSearch at h
  simp only at h
  split at h
  · simp at h
  · next r hr =>
    simp only [Option.some.injEq, Prod.mk.injEq] at h
    obtain ⟨hst, hs'⟩ := h
    obtain ⟨i, _, _, htmp, hrest⟩ := lsLoop_spec o _ trial _ fuel 0 _ _ r hr
    simp only at hrest
    rcases hrest with ⟨hst', _⟩ | ⟨hst', _, _, hn, hmem⟩
    · exact absurd (hst.symm.trans hst') hne
    · rw [← hs', hn, hmem]
      refine ⟨hst.symm.trans hst', ?_⟩
      rw [hst']
      simp only [reduceCtorEq, if_false, true_and]
      split <;> simp

end Acados.Funnel
