import Verif.Lemmas.QpScaling
/-!
# Properties C24 (scaled QPs are equivalent), C25 (scaling factors)
-/
namespace Acados.QpScal
open Finset
variable {K : Type*} [Field K] [LinearOrder K] [IsStrictOrderedRing K]

theorem conFactor_pos (s : Stage K) (j : Nat) : 0 < conFactor s j ∧ conFactor s j ≤ 1 := by
  unfold conFactor
  simp only [cmax_eq_max]
  have h : (1 : K) ≤ max 1 (max (max |s.mask (s.nb + j) * s.d (s.nb + j)|
    |s.mask (2 * s.nb + s.ng + j) * s.d (2 * s.nb + s.ng + j)|) (colNorm s.nux s.DCt j)) :=
    le_max_left _ _
  exact ⟨by positivity, by rw [div_le_one (by linarith)]; exact h⟩

/-- the relation between the original and the scaled QP, for all option combinations -/
theorem scaleWith_rel (o : Opts K) (q : Qp K) (m : Mem K) (w out : Sol K) (hq : WF q)
    (hsh : SlacksUnshared q) (f : K) (hf : 0 < f) (hf1 : o.scaleObj = false → f = 1) :
    Rel q (scaleQpWith o.scaleObj o.scaleCon f q m).qp w
      (rescale o q (scaleQpWith o.scaleObj o.scaleCon f q m) w out) f
      (fun i r => if o.scaleCon ∧ (q.st i).nb ≤ r then conFactor (q.st i) (r - (q.st i).nb) else 1)
      (fun i k => if o.scaleCon then
        tau (q.st i) (conFactor (q.st i)) (q.st i).ng
          (if k < (q.st i).ns then k else k - (q.st i).ns) else 1) := by
  obtain ⟨so, sc, ub, lb⟩ := o
  have hst : ∀ i ≤ q.N, (scaleQpWith so sc f q m).qp.st i =
      (scaleStage so sc f (q.st i) (m.qp.st i) (m.sc i)).1 := by
    intro i hi; simp only [scaleQpWith, hi, if_true]
  have hsc : ∀ i ≤ q.N, (scaleQpWith so sc f q m).sc i =
      (scaleStage so sc f (q.st i) (m.qp.st i) (m.sc i)).2 := by
    intro i hi; simp only [scaleQpWith, hi, if_true]
  have hN : (scaleQpWith so sc f q m).qp.N = q.N := rfl
  have hnx : (scaleQpWith so sc f q m).qp.nx = q.nx := rfl
  have hnu : (scaleQpWith so sc f q m).qp.nu = q.nu := rfl
  have hF : (scaleQpWith so sc f q m).objFac = f := rfl
  simp only at hf1 ⊢
  generalize hM : scaleQpWith so sc f q m = M at *
  have hpos : ∀ i j, 0 < conFactor (q.st i) j := fun i j => (conFactor_pos _ _).1
  have htau : ∀ i k, 0 < tau (q.st i) (conFactor (q.st i)) (q.st i).ng k := by
    intro i k
    refine prod_pos fun j _ => ?_
    split
    · exact hpos i j
    · exact one_pos
  have htau_gen : ∀ i, ∀ j < (q.st i).ng, ∀ k : Nat, (q.st i).idxs ((q.st i).nb + j) = (k : Int) →
      tau (q.st i) (conFactor (q.st i)) (q.st i).ng k = conFactor (q.st i) j := by
    intro i j hj k hk
    unfold tau
    rw [prod_eq_single j]
    · rw [if_pos hk]
    · intro j' hj' hne
      refine if_neg fun he => hne ?_
      have := hsh i ((q.st i).nb + j') (by unfold Stage.m; have := mem_range.1 hj'; omega)
        ((q.st i).nb + j) (by unfold Stage.m; omega) (by rw [he]; omega) (by rw [he, hk])
      omega
    · intro h; exact absurd (mem_range.2 hj) h
  have htau_bnd : ∀ i, ∀ r < (q.st i).nb, ∀ k : Nat, (q.st i).idxs r = (k : Int) →
      tau (q.st i) (conFactor (q.st i)) (q.st i).ng k = 1 := by
    intro i r hr k hk
    unfold tau
    refine prod_eq_one fun j hj => ?_
    refine if_neg fun he => ?_
    have := hsh i ((q.st i).nb + j) (by unfold Stage.m; have := mem_range.1 hj; omega)
      r (by unfold Stage.m; omega) (by rw [he]; omega) (by rw [he, hk])
    omega
  have hconv : ∀ i k, ((k : Nat) < (q.st i).ns → (if k < (q.st i).ns then k else k - (q.st i).ns) = k)
      ∧ (if (q.st i).ns + k < (q.st i).ns then (q.st i).ns + k else (q.st i).ns + k - (q.st i).ns)
        = k := by
    intro i k
    exact ⟨fun h => if_pos h, by rw [if_neg (by omega)]; omega⟩
  have hinv : ∀ i, ∀ t0, ConInv (q.st i) t0 (q.st i).ng
      ((List.range (q.st i).ng).foldl (conStep (q.st i)) t0) := fun i t0 =>
    conLoop_inv (q.st i) (hq.idxs i) t0 _ le_rfl
  -- stored factors
  have hscv : sc = true → ∀ i ≤ q.N, ∀ j < (q.st i).ng, M.sc i j = conFactor (q.st i) j := by
    intro hs i hi j hj
    rw [hsc i hi]
    simp only [scaleStage, hs, if_true]
    exact (hinv i _).sc j hj
  have htau' : sc = true → ∀ i ≤ q.N, ∀ k, tau (q.st i) (M.sc i) (q.st i).ng k
      = tau (q.st i) (conFactor (q.st i)) (q.st i).ng k := by
    intro hs i hi k
    refine prod_congr rfl fun j hj => ?_
    rw [hscv hs i hi j (mem_range.1 hj)]
  have hun : ∀ i, ∀ t0, UnInv (q.st i) (M.sc i) t0 (q.st i).ng
      ((List.range (q.st i).ng).foldl (unStep (q.st i) (M.sc i)) t0) := fun i t0 =>
    unLoop_inv (q.st i) (M.sc i) (hq.idxs i) t0 _ le_rfl
  -- initial values of the scaled gradient / slack Hessian
  have hg1 : ∀ i, ∀ r < (q.st i).nux + 2 * (q.st i).ns,
      (if so then veccpsc ((q.st i).nux + 2 * (q.st i).ns) f (q.st i).g (m.qp.st i).g
        else if sc then Step.veccp ((q.st i).nux + 2 * (q.st i).ns) (q.st i).g (m.qp.st i).g
        else (q.st i).g) r = f * (q.st i).g r := by
    intro i r hr
    cases so
    · rw [hf1 rfl, one_mul]
      cases sc
      · rfl
      · simp [Step.veccp, hr]
    · simp [veccpsc, hr]
  have hZ1 : ∀ i, ∀ r < 2 * (q.st i).ns,
      (if so then veccpsc (2 * (q.st i).ns) f (q.st i).Z (m.qp.st i).Z
        else if sc then Step.veccp (2 * (q.st i).ns) (q.st i).Z (m.qp.st i).Z
        else (q.st i).Z) r = f * (q.st i).Z r := by
    intro i r hr
    cases so
    · rw [hf1 rfl, one_mul]
      cases sc
      · rfl
      · simp [Step.veccp, hr]
    · simp [veccpsc, hr]
  have hd0 : ∀ i, ∀ r < 2 * ((q.st i).nb + (q.st i).ng + (q.st i).ns),
      Step.veccp (2 * ((q.st i).nb + (q.st i).ng + (q.st i).ns)) (q.st i).d (m.qp.st i).d r
        = (q.st i).d r := by
    intro i r hr; simp [Step.veccp, hr]
  -- initial values for the rescaling
  have hl1 : ∀ i ≤ q.N, ∀ r < 2 * ((q.st i).nb + (q.st i).ng + (q.st i).ns),
      (if i ≤ q.N then
        (if so then veccpsc (2 * ((q.st i).nb + (q.st i).ng + (q.st i).ns)) (1 / f) (w.lam i) (out.lam i)
          else if sc then Step.veccp (2 * ((q.st i).nb + (q.st i).ng + (q.st i).ns)) (w.lam i) (out.lam i)
          else w.lam i) else out.lam i) r = w.lam i r / f := by
    intro i hi r hr
    rw [if_pos hi]
    cases so
    · have := hf1 rfl
      cases sc
      · simp [this]
      · simp [Step.veccp, hr, this]
    · simp [veccpsc, hr]; ring
  have hu1 : ∀ i ≤ q.N, ∀ r < (q.st i).nux + 2 * (q.st i).ns,
      (if i ≤ q.N then
        (if sc then Step.veccp ((q.st i).nux + 2 * (q.st i).ns) (w.ux i) (out.ux i) else w.ux i)
        else out.ux i) r = w.ux i r := by
    intro i hi r hr
    rw [if_pos hi]
    cases sc
    · rfl
    · simp [Step.veccp, hr]
  refine
    { f_pos := hf, N := hN, nx := hnx, nu := hnu, nux := ?nux, nb := ?nb, ng := ?ng, ns := ?ns,
      B := ?B, b := ?b, mask := ?mask, idxb := ?idxb, idxs := ?idxs, ρ_pos := ?ρ_pos, ρ_bnd := ?ρ_bnd, T_pos := ?T_pos,
      T_row := ?T_row, H := ?H, g := ?g, gs := ?gs, Z := ?Z, D := ?D, dl := ?dl, du := ?du, ds := ?ds,
      ux := ?ux, us := ?us, pi := ?pi, ll := ?ll, lu := ?lu, ls := ?ls }
  case nux => intro i hi; rw [hst i hi]; cases sc <;> rfl
  case nb => intro i hi; rw [hst i hi]; cases sc <;> rfl
  case ng => intro i hi; rw [hst i hi]; cases sc <;> rfl
  case ns => intro i hi; rw [hst i hi]; cases sc <;> rfl
  case B => intro i hi; rw [hst i hi]; cases sc <;> rfl
  case b => intro i hi; rw [hst i hi]; cases sc <;> rfl
  case mask => intro i hi; rw [hst i hi]; cases sc <;> rfl
  case idxb => intro i hi; rw [hst i hi]; cases sc <;> rfl
  case idxs => intro i hi; rw [hst i hi]; cases sc <;> rfl
  case ρ_pos =>
    intro i _ r _
    split
    · exact hpos _ _
    · exact one_pos
  case ρ_bnd => intro i _ r hr; exact if_neg (by omega)
  case T_pos =>
    intro i _ k _
    split
    · exact htau _ _
    · exact one_pos
  case T_row =>
    intro i _ r hr k hk
    have hkn : k < (q.st i).ns := by
      rcases hq.idxs i r hr with h | ⟨k', hk', h⟩
      · omega
      · omega
    refine ⟨hkn, ?_⟩
    simp only [(hconv i k).1 hkn, (hconv i k).2]
    cases sc
    · simp
    · simp only [if_true, true_and]
      by_cases hb : (q.st i).nb ≤ r
      · rw [if_pos hb]
        have := htau_gen i (r - (q.st i).nb) (by unfold Stage.m at hr; omega) k
          (by rw [show (q.st i).nb + (r - (q.st i).nb) = r by omega]; exact hk)
        exact ⟨this, this⟩
      · rw [if_neg hb]
        have := htau_bnd i r (by omega) k hk
        exact ⟨this, this⟩
  case H =>
    intro i hi r hr c hc
    rw [hst i hi]
    cases so
    · rw [hf1 rfl, one_mul]
      cases sc <;> rfl
    · cases sc <;> simp [scaleStage, hr, hc]
  case g =>
    intro i hi r hr
    rw [hst i hi, ← hg1 i r (by omega)]
    cases sc
    · rfl
    · simp only [scaleStage, if_true]
      rw [(hinv i _).g r hr]
  case gs =>
    intro i hi k hk
    rw [hst i hi, ← hg1 i _ (by omega)]
    cases sc
    · simp [scaleStage]
    · simp only [scaleStage, if_true]
      by_cases hkn : k < (q.st i).ns
      · rw [(hinv i _).gl k hkn, if_pos hkn]
      · obtain ⟨k', rfl⟩ : ∃ k', k = (q.st i).ns + k' := ⟨k - (q.st i).ns, by omega⟩
        rw [(hinv i _).gu k' (by omega), (hconv i k').2]
  case Z =>
    intro i hi k hk
    rw [hst i hi, ← hZ1 i k hk]
    cases sc
    · simp [scaleStage]
    · simp only [scaleStage, if_true]
      by_cases hkn : k < (q.st i).ns
      · rw [(hinv i _).Zl k hkn, if_pos hkn]
      · obtain ⟨k', rfl⟩ : ∃ k', k = (q.st i).ns + k' := ⟨k - (q.st i).ns, by omega⟩
        rw [(hinv i _).Zu k' (by omega), (hconv i k').2]
  case D =>
    intro i hi r hr j hj
    rw [hst i hi]
    cases sc
    · simp [scaleStage]
    · simp only [scaleStage, if_true]
      rw [(hinv i _).D r hr j hj, if_pos ⟨trivial, by omega⟩, Nat.add_sub_cancel_left]
  case dl =>
    intro i hi r hr hm
    have hm1 : (q.st i).mask r = 1 := (hq.mask i r).resolve_left hm
    rw [hst i hi]
    cases sc
    · simp [scaleStage]
    · simp only [scaleStage, if_true, true_and]
      unfold Stage.m at hr
      by_cases hb : (q.st i).nb ≤ r
      · obtain ⟨j, rfl⟩ : ∃ j, r = (q.st i).nb + j := ⟨r - (q.st i).nb, by omega⟩
        rw [(hinv i _).dgl j (by omega), if_pos ⟨by omega, hm1⟩,
          if_pos (show (q.st i).nb ≤ (q.st i).nb + j by omega), Nat.add_sub_cancel_left]
        simp only
        rw [hd0 i _ (by omega), mul_comm]
      · rw [(hinv i _).dbl r (by omega), if_neg hb, one_mul]
        exact hd0 i _ (by omega)
  case du =>
    intro i hi r hr hm
    have hm1 := (hq.mask i ((q.st i).m + r)).resolve_left hm
    rw [hst i hi]
    cases sc
    · simp [scaleStage]
    · simp only [scaleStage, if_true, true_and]
      unfold Stage.m at hr hm1 ⊢
      by_cases hb : (q.st i).nb ≤ r
      · obtain ⟨j, rfl⟩ : ∃ j, r = (q.st i).nb + j := ⟨r - (q.st i).nb, by omega⟩
        have e : (q.st i).nb + (q.st i).ng + ((q.st i).nb + j) = 2 * (q.st i).nb + (q.st i).ng + j := by
          omega
        rw [e] at hm1 ⊢
        rw [(hinv i _).dgu j (by omega), if_pos ⟨by omega, hm1⟩,
          if_pos (show (q.st i).nb ≤ (q.st i).nb + j by omega), Nat.add_sub_cancel_left]
        simp only
        rw [hd0 i _ (by omega), mul_comm]
      · rw [(hinv i _).dbu r (by omega), if_neg hb, one_mul]
        exact hd0 i _ (by omega)
  case ds =>
    intro i hi k hk
    rw [hst i hi]
    cases sc
    · simp [scaleStage]
    · simp only [scaleStage, if_true]
      unfold Stage.m
      by_cases hkn : k < (q.st i).ns
      · rw [(hinv i _).dsl k hkn, if_pos hkn]
        simp only
        rw [hd0 i _ (by omega), mul_comm]
      · obtain ⟨k', rfl⟩ : ∃ k', k = (q.st i).ns + k' := ⟨k - (q.st i).ns, by omega⟩
        rw [(hinv i _).dsu k' (by omega), (hconv i k').2]
        simp only
        rw [hd0 i _ (by omega), mul_comm]
  case ux =>
    intro i hi r hr
    rw [← hu1 i hi r (by omega)]
    cases sc
    · rfl
    · simp only [rescale, if_true]
      rw [if_pos hi, (hun i _).ux r hr]
  case us =>
    intro i hi k hk
    rw [← hu1 i hi _ (by omega)]
    cases sc
    · simp [rescale]
    · simp only [rescale, if_true]
      rw [if_pos hi]
      by_cases hkn : k < (q.st i).ns
      · rw [(hun i _).sl k hkn, if_pos hkn, htau' rfl i hi]
      · obtain ⟨k', rfl⟩ : ∃ k', k = (q.st i).ns + k' := ⟨k - (q.st i).ns, by omega⟩
        rw [(hun i _).su k' (by omega), (hconv i k').2, htau' rfl i hi]
  case pi =>
    intro i hi c hc
    cases so
    · rw [hf1 rfl, div_one]
      cases sc <;> simp [rescale, hi, Step.veccp, hc]
    · cases sc <;> simp [rescale, hi, veccpsc, hc, hF] <;> ring
  case ll =>
    intro i hi r hr
    unfold Stage.m at hr
    rw [mul_div_assoc, ← hl1 i hi r (by omega)]
    cases sc
    · simp [rescale, hF]
    · simp only [rescale, if_true, hF, true_and]
      rw [if_pos hi]
      by_cases hb : (q.st i).nb ≤ r
      · obtain ⟨j, rfl⟩ : ∃ j, r = (q.st i).nb + j := ⟨r - (q.st i).nb, by omega⟩
        rw [(hun i _).lgl j (by omega), if_pos (show j < (q.st i).ng by omega),
          if_pos (show (q.st i).nb ≤ (q.st i).nb + j by omega), Nat.add_sub_cancel_left, hscv rfl i hi j (by omega), mul_comm]
      · rw [(hun i _).lbl r (by omega), if_neg hb, one_mul]
  case lu =>
    intro i hi r hr
    unfold Stage.m at hr ⊢
    rw [mul_div_assoc, ← hl1 i hi _ (by omega)]
    cases sc
    · simp [rescale, hF]
    · simp only [rescale, if_true, hF, true_and]
      rw [if_pos hi]
      by_cases hb : (q.st i).nb ≤ r
      · obtain ⟨j, rfl⟩ : ∃ j, r = (q.st i).nb + j := ⟨r - (q.st i).nb, by omega⟩
        have e : (q.st i).nb + (q.st i).ng + ((q.st i).nb + j) = 2 * (q.st i).nb + (q.st i).ng + j := by
          omega
        rw [e, (hun i _).lgu j (by omega), if_pos (show j < (q.st i).ng by omega),
          if_pos (show (q.st i).nb ≤ (q.st i).nb + j by omega), Nat.add_sub_cancel_left, hscv rfl i hi j (by omega), mul_comm]
      · rw [(hun i _).lbu r (by omega), if_neg hb, one_mul]
  case ls =>
    intro i hi k hk
    unfold Stage.m
    rw [mul_div_assoc, ← hl1 i hi _ (by omega)]
    cases sc
    · simp [rescale, hF]
    · simp only [rescale, if_true, hF]
      rw [if_pos hi]
      by_cases hkn : k < (q.st i).ns
      · rw [(hun i _).lsl k hkn, if_pos hkn, htau' rfl i hi, mul_comm]
      · obtain ⟨k', rfl⟩ : ∃ k', k = (q.st i).ns + k' := ⟨k - (q.st i).ns, by omega⟩
        rw [(hun i _).lsu k' (by omega), (hconv i k').2, htau' rfl i hi, mul_comm]

theorem objFactorX_pos (ub lb eig grad f : K) (hub : 0 < ub)
    (h : (objFactorX ub lb eig grad).1 = some f) : 0 < f := by
  have h0 : 0 < (if eig < ub then (1 : K) else ub / eig) := by
    split
    · exact one_pos
    · next he => exact div_pos hub (lt_of_lt_of_le hub (not_lt.1 he))
  unfold objFactorX at h
  simp only [cmax_eq_max] at h
  generalize (if eig < ub then (1 : K) else ub / eig) = f0 at h h0
  by_cases h1 : f0 * grad ≤ lb
  · rw [if_pos h1] at h
    by_cases h2 : eig = 0 <;> by_cases h3 : grad = 0 <;> simp [h2, h3] at h
    all_goals rw [← h]; exact lt_max_of_lt_left h0
  · rw [if_neg h1] at h
    rw [← Option.some.inj h]; exact h0

theorem scale_rel (o : Opts K) (hub : 0 < o.ubMaxEig) (q : Qp K) (m M : Mem K)
    (hM : scaleQp o q m = some M) (w out : Sol K) (hq : WF q) (hsh : SlacksUnshared q) :
    ∃ ρ T, Rel q M.qp w (rescale o q M w out) M.objFac ρ T := by
  unfold scaleQp at hM
  split at hM
  · next hso =>
    obtain ⟨f, hf, rfl⟩ := Option.map_eq_some_iff.1 hM
    have := scaleWith_rel o q m w out hq hsh f (objFactorX_pos _ _ _ _ f hub hf)
      (fun h => by rw [h] at hso; exact absurd hso (by simp))
    rw [hso] at this
    exact ⟨_, _, this⟩
  · next hso =>
    have hso' : o.scaleObj = false := by simpa using hso
    rw [← Option.some.inj hM]
    have := scaleWith_rel o q m w out hq hsh 1 one_pos (fun _ => rfl)
    rw [hso'] at this
    exact ⟨_, _, this⟩

/-! ## C24 -/

/-- **C24** (primal-dual equivalence; partial): for every QP in which no slack is shared by two
constraints, every option setting and every previous content of the work memory, a point is a KKT
point of the QP handed to the solver iff the rescaled point is a KKT point of the original QP.
Missing for the full property: shared slacks (`C24_shared_slack`). -/
theorem C24_kkt_partial (o : Opts K) (hub : 0 < o.ubMaxEig) (q : Qp K) (m M : Mem K)
    (hM : scaleQp o q m = some M) (w out : Sol K) (hq : WF q) (hsh : SlacksUnshared q) :
    Kkt M.qp w ↔ Kkt q (rescale o q M w out) := by
  obtain ⟨ρ, T, h⟩ := scale_rel o hub q m M hM w out hq hsh
  exact h.kkt hq

/-- **C24** (feasible sets and objective values; partial, same restriction). -/
theorem C24_objective_partial (o : Opts K) (hub : 0 < o.ubMaxEig) (q : Qp K) (m M : Mem K)
    (hM : scaleQp o q m = some M) (w out : Sol K) (hq : WF q) (hsh : SlacksUnshared q) :
    (Feasible M.qp w.ux ↔ Feasible q (rescale o q M w out).ux) ∧
    value M.qp w.ux = M.objFac * value q (rescale o q M w out).ux ∧ 0 < M.objFac := by
  obtain ⟨ρ, T, h⟩ := scale_rel o hub q m M hM w out hq hsh
  exact ⟨h.feasible hq, h.value, h.f_pos⟩

/-- **C24** (global solutions; partial, same restriction): the scaled QP and the original QP have
the same minimisers. -/
theorem C24_minimiser_partial (o : Opts K) (hub : 0 < o.ubMaxEig) (q : Qp K) (m M : Mem K)
    (hM : scaleQp o q m = some M) (w out : Sol K) (hq : WF q) (hsh : SlacksUnshared q) :
    IsMin M.qp w.ux ↔ IsMin q (rescale o q M w out).ux := by
  obtain ⟨ρ, T, h⟩ := scale_rel o hub q m M hM w out hq hsh
  have hf := h.f_pos
  constructor
  · rintro ⟨hfe, hmin⟩
    refine ⟨(h.feasible hq).1 hfe, fun v hv => ?_⟩
    -- the scaled version of `v`
    let w2 : Sol K := ⟨fun i r => if r < (q.st i).nux then v i r
      else v i r * T i (r - (q.st i).nux), fun _ _ => 0, fun _ _ => 0⟩
    have h2 : Rel q M.qp w2 ⟨v, fun _ _ => 0, fun _ _ => 0⟩ M.objFac ρ T :=
      { h with
        ux := fun i _ r hr => by simp [w2, hr]
        us := fun i hi k hk => by
          have := (h.T_pos i hi k hk).ne'
          simp [w2, this]
        pi := fun _ _ _ _ => by simp [w2]
        ll := fun _ _ _ _ => by simp [w2]
        lu := fun _ _ _ _ => by simp [w2]
        ls := fun _ _ _ _ => by simp [w2] }
    have := hmin w2.ux ((h2.feasible hq).2 hv)
    rw [h.value, h2.value] at this
    exact le_of_mul_le_mul_left this hf
  · rintro ⟨hfe, hmin⟩
    refine ⟨(h.feasible hq).2 hfe, fun v hv => ?_⟩
    let v2 : Sol K := ⟨fun i r => if r < (q.st i).nux then v i r
      else v i r / T i (r - (q.st i).nux), fun _ _ => 0, fun _ _ => 0⟩
    have h2 : Rel q M.qp ⟨v, fun _ _ => 0, fun _ _ => 0⟩ v2 M.objFac ρ T :=
      { h with
        ux := fun i _ r hr => by simp [v2, hr]
        us := fun i hi k hk => by simp [v2]
        pi := fun _ _ _ _ => by simp [v2]
        ll := fun _ _ _ _ => by simp [v2]
        lu := fun _ _ _ _ => by simp [v2]
        ls := fun _ _ _ _ => by simp [v2] }
    have := hmin v2.ux ((h2.feasible hq).1 hv)
    rw [h.value, h2.value]
    exact mul_le_mul_of_nonneg_left this hf.le

/-- a QP with one variable fixed to 0 and two general constraints `x + s ≥ 1`, `2 x + s ≥ 1` that
share the slack `s` with cost `s` -/
def sharedQp : Qp ℚ where
  N := 0
  nx := fun _ => 1
  nu := fun _ => 0
  st := fun _ =>
    { nux := 1, nb := 1, ng := 2, ns := 1
      H := fun _ _ => 0
      g := fun r => if r = 0 then 0 else 1
      Z := fun _ => 0
      BAbt := fun _ _ => 0
      b := fun _ => 0
      DCt := fun _ j => if j = 0 then 1 else 2
      d := fun r => if r = 1 ∨ r = 2 then 1 else 0
      mask := fun r => if r = 4 ∨ r = 5 then 0 else 1
      idxb := fun _ => 0
      idxs := fun r => if r = 0 then -1 else 0 }

/-- a solution of the scaled QP -/
def sharedSol : Sol ℚ where
  ux := fun _ r => if r = 1 then 1 else 0
  pi := fun _ _ => 0
  lam := fun _ r => if r = 1 then 2 else if r = 3 then 2 else if r = 7 then 2 else 0

def sharedMem : Mem ℚ := ⟨sharedQp, fun _ _ => 1, 1⟩
def sharedOpts : Opts ℚ := ⟨false, true, 1, 1⟩

/-- **C24** is false when two constraints share a slack: a KKT point of the scaled QP is rescaled
to a point that is not a KKT point of the original QP (the slack is twice as large as needed). -/
theorem C24_shared_slack :
    WF sharedQp ∧ ∃ M, scaleQp sharedOpts sharedQp sharedMem = some M ∧ Kkt M.qp sharedSol ∧
      ¬ Kkt sharedQp (rescale sharedOpts sharedQp M sharedSol sharedSol) := by
  refine ⟨⟨fun _ => rfl, fun i j hj => Nat.zero_lt_one, fun i r hr => ?_, fun i r => ?_⟩,
    scaleQpWith false true 1 sharedQp sharedMem, rfl, ?_, ?_⟩
  · simp only [sharedQp]
    by_cases h : r = 0
    · left; simp [h]
    · right; exact ⟨0, by simp, by simp [h]⟩
  · simp only [sharedQp]
    split <;> simp
  · have hm : ∀ i ≤ 0, ((scaleQpWith false true 1 sharedQp sharedMem).qp.st i).m = 3 := by
      intro i hi; obtain rfl : i = 0 := by omega
      rfl
    have hn : ∀ i ≤ 0, ((scaleQpWith false true 1 sharedQp sharedMem).qp.st i).ns = 1 := by
      intro i hi; obtain rfl : i = 0 := by omega
      rfl
    have hx : ∀ i ≤ 0, ((scaleQpWith false true 1 sharedQp sharedMem).qp.st i).nux = 1 := by
      intro i hi; obtain rfl : i = 0 := by omega
      rfl
    refine ⟨⟨fun i hi => absurd hi (Nat.not_lt_zero i), ?_, ?_, ?_⟩, ?_, ?_, ?_, ?_, ?_, ?_⟩ <;>
      intro i hi r hr <;> have hi : i ≤ 0 := hi <;> obtain rfl : i = 0 := by omega
    · rw [hm 0 hi] at hr; revert r; decide +kernel
    · rw [hm 0 hi] at hr; revert r; decide +kernel
    · rw [hn 0 hi] at hr; revert r; decide +kernel
    · rw [hx 0 hi] at hr; revert r; decide +kernel
    · rw [hn 0 hi] at hr; revert r; decide +kernel
    · rw [hn 0 hi] at hr; revert r; decide +kernel
    · rw [hm 0 hi] at hr; revert r; decide +kernel
    · rw [hm 0 hi] at hr; revert r; decide +kernel
    · rw [hn 0 hi] at hr; revert r; decide +kernel
  · intro h
    have := (h.low 0 le_rfl 1 (by decide)).2.2 (by decide +kernel)
    exact absurd this (by decide +kernel)

/-- non-vacuity: the same QP with separate slacks for the two rows meets the hypotheses, and its
scaling is not trivial -/
example : ∃ q : Qp ℚ, WF q ∧ SlacksUnshared q ∧
    (scaleQp ⟨true, true, 1, 4⟩ q sharedMem).map (fun M => (M.sc 0 1, M.objFac)) = some (1/2, 4) := by
  refine ⟨⟨0, fun _ => 1, fun _ => 0, fun _ =>
    { (sharedQp.st 0) with ns := 2, idxs := fun r => (r : Int) - 1 }⟩, ⟨fun _ => rfl,
    fun i j hj => Nat.zero_lt_one, fun i r hr => ?_, fun i r => ?_⟩, ?_, ?_⟩
  · change r < 1 + 2 at hr
    simp only
    rcases r with _ | r
    · left; rfl
    · right; exact ⟨r, by omega, by push_cast; ring⟩
  · simp only [sharedQp]
    split <;> simp
  · intro i r hr r' hr' _ he
    simp only at he
    omega
  · decide +kernel

/-! ## C25 -/

theorem colNorm_le (n : Nat) (A : Nat → Nat → K) (j : Nat) (c : K) :
    colNorm n A j ≤ c ↔ 0 ≤ c ∧ ∀ r < n, |A r j| ≤ c := by
  unfold colNorm
  have : ∀ (l : List Nat) (m : K), l.foldl (fun m r => cmax m |A r j|) m ≤ c ↔
      m ≤ c ∧ ∀ r ∈ l, |A r j| ≤ c := by
    intro l
    induction l with
    | nil => intro m; simp
    | cons a t ih =>
      intro m
      rw [List.foldl_cons, ih, cmax_eq_max, max_le_iff]
      simp [and_assoc]
  rw [this]; simp

theorem colNorm_attained (n : Nat) (A : Nat → Nat → K) (j : Nat) :
    colNorm n A j = 0 ∨ ∃ r < n, |A r j| = colNorm n A j := by
  unfold colNorm
  have : ∀ (l : List Nat) (m : K), l.foldl (fun m r => cmax m |A r j|) m = m ∨
      ∃ r ∈ l, |A r j| = l.foldl (fun m r => cmax m |A r j|) m := by
    intro l
    induction l with
    | nil => intro m; simp
    | cons a t ih =>
      intro m
      rw [List.foldl_cons]
      rcases ih (cmax m |A a j|) with h | ⟨r, hr, h⟩
      · rw [h]
        rw [cmax_eq_max]
        rcases max_choice m |A a j| with h' | h'
        · left; exact h'
        · right; exact ⟨a, by simp, h'.symm⟩
      · right; exact ⟨r, by simp [hr], h⟩
  rcases this (List.range n) 0 with h | ⟨r, hr, h⟩
  · left; exact h
  · right; exact ⟨r, List.mem_range.1 hr, h⟩

/-- **C25** (constraint factors): with constraint scaling every factor is in `(0, 1]`, every
coefficient and every switched-on bound of the scaled general constraints is at most 1 in absolute
value, and a row is scaled only as far as needed (some entry of it has absolute value exactly 1). -/
theorem C25_constraint_factors (so : Bool) (f : K) (q : Qp K) (m : Mem K) (hq : WF q) (i : Nat)
    (hi : i ≤ q.N) (j : Nat) (hj : j < (q.st i).ng) :
    let M := scaleQpWith so true f q m
    let s := q.st i
    let t := M.qp.st i
    (0 < M.sc i j ∧ M.sc i j ≤ 1) ∧
    (∀ r < s.nux, |t.DCt r j| ≤ 1) ∧
    (s.mask (s.nb + j) = 1 → |t.d (s.nb + j)| ≤ 1) ∧
    (s.mask (2 * s.nb + s.ng + j) = 1 → |t.d (2 * s.nb + s.ng + j)| ≤ 1) ∧
    (M.sc i j < 1 → (∃ r < s.nux, |t.DCt r j| = 1) ∨
      (s.mask (s.nb + j) = 1 ∧ |t.d (s.nb + j)| = 1) ∨
      (s.mask (2 * s.nb + s.ng + j) = 1 ∧ |t.d (2 * s.nb + s.ng + j)| = 1)) := by
  intro M s t
  have hinv := fun t0 => conLoop_inv (q.st i) (hq.idxs i) t0 _ le_rfl
  have e1 : M.sc i j = conFactor s j := by
    simp only [M, scaleQpWith, hi, if_true, scaleStage]
    exact (hinv _).sc j hj
  have e2 : ∀ r < s.nux, t.DCt r j = conFactor s j * s.DCt r j := by
    intro r hr
    simp only [t, M, scaleQpWith, hi, if_true, scaleStage]
    exact (hinv _).D r hr j hj
  have e3 : s.mask (s.nb + j) = 1 → t.d (s.nb + j) = s.d (s.nb + j) * conFactor s j := by
    intro hm
    simp only [t, M, scaleQpWith, hi, if_true, scaleStage]
    rw [(hinv _).dgl j hj, if_pos ⟨hj, hm⟩]
    have : s.nb + j < 2 * (s.nb + s.ng + s.ns) := by have : j < s.ng := hj; omega
    simp only [Step.veccp]
    rw [if_pos this]
  have e4 : s.mask (2 * s.nb + s.ng + j) = 1 →
      t.d (2 * s.nb + s.ng + j) = s.d (2 * s.nb + s.ng + j) * conFactor s j := by
    intro hm
    simp only [t, M, scaleQpWith, hi, if_true, scaleStage]
    rw [(hinv _).dgu j hj, if_pos ⟨hj, hm⟩]
    have : 2 * s.nb + s.ng + j < 2 * (s.nb + s.ng + s.ns) := by have : j < s.ng := hj; omega
    simp only [Step.veccp]
    rw [if_pos this]
  have hp := conFactor_pos s j
  have hval : conFactor s j = 1 / max 1 (max (max |s.mask (s.nb + j) * s.d (s.nb + j)|
      |s.mask (2 * s.nb + s.ng + j) * s.d (2 * s.nb + s.ng + j)|) (colNorm s.nux s.DCt j)) := by
    unfold conFactor; simp only [cmax_eq_max]
  set a := |s.mask (s.nb + j) * s.d (s.nb + j)| with ha
  set b := |s.mask (2 * s.nb + s.ng + j) * s.d (2 * s.nb + s.ng + j)| with hb
  set c := colNorm s.nux s.DCt j with hc
  set D := max 1 (max (max a b) c) with hD
  have hD1 : 1 ≤ D := le_max_left _ _
  have hDp : 0 < D := by linarith
  have hle : ∀ x : K, |x| ≤ D → |conFactor s j * x| ≤ 1 := by
    intro x hx
    rw [abs_mul, abs_of_pos hp.1, hval, one_div, inv_mul_le_iff₀ hDp, mul_one]
    exact hx
  have heq : ∀ x : K, |x| = D → |conFactor s j * x| = 1 := by
    intro x hx
    rw [abs_mul, abs_of_pos hp.1, hval, hx, one_div, inv_mul_cancel₀ hDp.ne']
  have hcD : c ≤ D := le_trans (le_max_right _ _) (le_max_right _ _)
  have haD : a ≤ D := le_trans (le_trans (le_max_left a b) (le_max_left _ c)) (le_max_right _ _)
  have hbD : b ≤ D := le_trans (le_trans (le_max_right a b) (le_max_left _ c)) (le_max_right _ _)
  refine ⟨by rw [e1]; exact hp, ?_, ?_, ?_, ?_⟩
  · intro r hr
    rw [e2 r hr]
    exact hle _ (le_trans (((colNorm_le s.nux s.DCt j c).1 le_rfl).2 r hr) hcD)
  · intro hm
    rw [e3 hm, mul_comm]
    refine hle _ (le_trans (le_of_eq ?_) haD)
    rw [ha, hm, one_mul]
  · intro hm
    rw [e4 hm, mul_comm]
    refine hle _ (le_trans (le_of_eq ?_) hbD)
    rw [hb, hm, one_mul]
  · rw [e1]
    intro hlt
    have hD1' : 1 < D := by
      rcases lt_or_eq_of_le hD1 with h | h
      · exact h
      · rw [hval, ← h, div_one] at hlt; exact absurd hlt (lt_irrefl _)
    have hDe : D = max (max a b) c := by
      rcases max_choice 1 (max (max a b) c) with h | h
      · rw [← hD] at h; linarith
      · rw [hD]; exact h
    rcases max_choice (max a b) c with h | h
    · rw [h] at hDe
      rcases max_choice a b with h' | h'
      · rw [h'] at hDe
        rcases hq.mask i (s.nb + j) with hm | hm
        · have hm' : s.mask (s.nb + j) = 0 := hm
          rw [hDe, ha, hm', zero_mul, abs_zero] at hDp
          exact absurd hDp (lt_irrefl _)
        · have hm' : s.mask (s.nb + j) = 1 := hm
          right; left
          refine ⟨hm', ?_⟩
          rw [e3 hm', mul_comm]
          refine heq _ ?_
          rw [hDe, ha, hm', one_mul]
      · rw [h'] at hDe
        rcases hq.mask i (2 * s.nb + s.ng + j) with hm | hm
        · have hm' : s.mask (2 * s.nb + s.ng + j) = 0 := hm
          rw [hDe, hb, hm', zero_mul, abs_zero] at hDp
          exact absurd hDp (lt_irrefl _)
        · have hm' : s.mask (2 * s.nb + s.ng + j) = 1 := hm
          right; right
          refine ⟨hm', ?_⟩
          rw [e4 hm', mul_comm]
          refine heq _ ?_
          rw [hDe, hb, hm', one_mul]
    · rw [h] at hDe
      left
      rcases colNorm_attained s.nux s.DCt j with h0 | ⟨r, hr, h0⟩
      · rw [← hc] at h0; rw [hDe, h0] at hDp; exact absurd hDp (lt_irrefl _)
      · exact ⟨r, hr, by rw [e2 r hr]; exact heq _ (by rw [h0, hDe])⟩

/-- **C25** (objective factor): for positive limits and an objective that is not identically zero
(`eig`, `grad` are the computed bounds of Hessian and gradient) the factor is finite and positive;
after scaling the curvature bound is at most the limit; if the gradient is still below its limit,
the curvature limit is active; without the warning status the factor is at most 1 and the gradient
is above its limit. -/
theorem C25_objective_factor (ub lb eig grad : K) (hub : 0 < ub) (hlb : 0 < lb) (he : 0 ≤ eig)
    (hg : 0 ≤ grad) (hne : eig ≠ 0 ∨ grad ≠ 0) :
    ∃ f, (objFactorX ub lb eig grad).1 = some f ∧ 0 < f ∧ f * eig ≤ ub ∧
      (f * grad < lb → f * eig = ub) ∧
      ((objFactorX ub lb eig grad).2 = false → f ≤ 1 ∧ lb < f * grad) ∧
      (1 < f → (objFactorX ub lb eig grad).2 = true ∧ f * grad ≤ lb) := by
  have h0e : ∀ f0, f0 = (if eig < ub then (1 : K) else ub / eig) →
      0 < f0 ∧ f0 ≤ 1 ∧ f0 * eig ≤ ub ∧ (f0 < 1 → f0 * eig = ub) ∧ (eig ≠ 0 → f0 ≤ ub / eig) := by
    intro f0 hf0
    by_cases h : eig < ub
    · rw [if_pos h] at hf0
      subst hf0
      refine ⟨one_pos, le_rfl, by linarith, fun h => absurd h (lt_irrefl _), fun hne => ?_⟩
      rw [le_div_iff₀ (lt_of_le_of_ne he hne.symm)]; linarith
    · rw [if_neg h] at hf0
      have hep : 0 < eig := lt_of_lt_of_le hub (not_lt.1 h)
      subst hf0
      refine ⟨div_pos hub hep, by rw [div_le_one hep]; exact not_lt.1 h,
        by rw [div_mul_cancel₀ _ hep.ne'], fun _ => div_mul_cancel₀ _ hep.ne', fun _ => le_rfl⟩
  unfold objFactorX
  simp only [cmax_eq_max, cmin_eq_min]
  obtain ⟨hp, h1, h2, h3, h4⟩ := h0e _ rfl
  generalize (if eig < ub then (1 : K) else ub / eig) = f0 at *
  by_cases hs : f0 * grad ≤ lb
  · rw [if_pos hs]
    by_cases hE : eig = 0
    · have hG : grad ≠ 0 := hne.resolve_left (by simp [hE])
      have hGp : 0 < grad := lt_of_le_of_ne hg hG.symm
      rw [if_pos hE, if_neg hG]
      refine ⟨_, rfl, lt_max_of_lt_left hp, by rw [hE, mul_zero]; exact hub.le, fun h => ?_, by simp,
        fun h => ⟨rfl, ?_⟩⟩
      · exfalso
        have : lb / grad * grad ≤ max f0 (lb / grad) * grad :=
          mul_le_mul_of_nonneg_right (le_max_right _ _) hg
        rw [div_mul_cancel₀ _ hG] at this
        linarith
      · rcases max_choice f0 (lb / grad) with h' | h'
        · rw [h']; exact hs
        · rw [h', div_mul_cancel₀ _ hG]
    · have hEp : 0 < eig := lt_of_le_of_ne he (Ne.symm hE)
      rw [if_neg hE]
      by_cases hG : grad = 0
      · rw [if_pos hG]
        refine ⟨_, rfl, lt_max_of_lt_left hp, ?_, fun _ => ?_, by simp, fun _ => ⟨rfl, ?_⟩⟩
        · rw [max_eq_right (h4 hE), div_mul_cancel₀ _ hE]
        · rw [max_eq_right (h4 hE), div_mul_cancel₀ _ hE]
        · rw [hG, mul_zero]; exact hlb.le
      · have hGp : 0 < grad := lt_of_le_of_ne hg (Ne.symm hG)
        rw [if_neg hG]
        have hmax : max f0 (min (ub / eig) (lb / grad)) = min (ub / eig) (lb / grad) := by
          refine max_eq_right (le_min (h4 hE) ?_)
          rw [le_div_iff₀ hGp]; exact hs
        rw [hmax]
        have hu : min (ub / eig) (lb / grad) * eig ≤ ub := by
          have := mul_le_mul_of_nonneg_right (min_le_left (ub / eig) (lb / grad)) he
          rwa [div_mul_cancel₀ _ hE] at this
        have hl : min (ub / eig) (lb / grad) * grad ≤ lb := by
          have := mul_le_mul_of_nonneg_right (min_le_right (ub / eig) (lb / grad)) hg
          rwa [div_mul_cancel₀ _ hG] at this
        refine ⟨_, rfl, lt_min (div_pos hub hEp) (div_pos hlb hGp), hu, fun h => ?_, by simp,
          fun _ => ⟨rfl, hl⟩⟩
        rcases min_choice (ub / eig) (lb / grad) with h' | h'
        · rw [h', div_mul_cancel₀ _ hE]
        · rw [h', div_mul_cancel₀ _ hG] at h
          exact absurd h (lt_irrefl _)
  · rw [if_neg hs]
    refine ⟨f0, rfl, hp, h2, fun h => ?_, fun _ => ⟨h1, not_le.1 hs⟩, fun h => ?_⟩
    · exact absurd h.le hs
    · exact absurd h (not_lt.2 h1)

/-- **C25** (zero objective): for an identically zero objective the floating-point factor is
+infinity (and the scaled gradient entries `inf * 0` are NaN). -/
theorem C25_zero_objective_infinite (ub lb : ℚ) (hub : 0 < ub) (hlb : 0 < lb) :
    objFactor (Dbl.fin ub) (Dbl.fin lb) (Dbl.fin 0) (Dbl.fin 0) = (Dbl.pinf, true) ∧
    (objFactor (Dbl.fin ub) (Dbl.fin lb) (Dbl.fin 0) (Dbl.fin 0)).1 * (Dbl.fin 0) = Dbl.nan := by
  have h : objFactor (Dbl.fin ub) (Dbl.fin lb) (Dbl.fin 0) (Dbl.fin 0) = (Dbl.pinf, true) := by
    have e0 : (Dbl.fin 0 < Dbl.fin ub) := by
      show Dbl.lt _ _ = true; simp [Dbl.lt, hub]
    have e1 : Dbl.fin ub / Dbl.fin 0 = Dbl.pinf := by
      show Dbl.div _ _ = _
      simp [Dbl.div, hub.ne', not_lt.2 hub.le]
    have e2 : Dbl.fin lb / Dbl.fin 0 = Dbl.pinf := by
      show Dbl.div _ _ = _
      simp [Dbl.div, hlb.ne', not_lt.2 hlb.le]
    have e3 : ((1 : Nat) : Dbl) * Dbl.fin 0 = Dbl.fin 0 := by
      show Dbl.mul (Dbl.fin ((1 : Nat) : ℚ)) (Dbl.fin 0) = Dbl.fin 0
      simp [Dbl.mul]
    have e4 : Dbl.fin 0 ≤ Dbl.fin lb := by
      show Dbl.le _ _ = true
      simp [Dbl.le, hlb.le]
    unfold objFactor
    simp only [e0, if_true, e1, e2, e3, e4]
    decide +kernel
  rw [h]
  exact ⟨rfl, by decide +kernel⟩

/-- in all other cases the floating-point computation (without rounding) gives the exact value -/
theorem C25_floating_point_agrees (ub lb eig grad : ℚ) (hub : 0 < ub) (hlb : 0 < lb) (he : 0 ≤ eig)
    (hg : 0 ≤ grad) :
    objFactor (Dbl.fin ub) (Dbl.fin lb) (Dbl.fin eig) (Dbl.fin grad) =
      (((objFactorX ub lb eig grad).1.map Dbl.fin).getD Dbl.pinf, (objFactorX ub lb eig grad).2) := by
  have elt : ∀ a b : ℚ, (Dbl.fin a < Dbl.fin b) ↔ a < b := by
    intro a b; show Dbl.lt _ _ = true ↔ _; simp [Dbl.lt]
  have ele : ∀ a b : ℚ, (Dbl.fin a ≤ Dbl.fin b) ↔ a ≤ b := by
    intro a b; show Dbl.le _ _ = true ↔ _; simp [Dbl.le]
  have emul : ∀ a b : ℚ, Dbl.fin a * Dbl.fin b = Dbl.fin (a * b) := fun a b => rfl
  have ediv : ∀ a b : ℚ, b ≠ 0 → Dbl.fin a / Dbl.fin b = Dbl.fin (a / b) := by
    intro a b hb; show Dbl.div _ _ = _; simp [Dbl.div, hb]
  have ediv0 : ∀ a : ℚ, 0 < a → Dbl.fin a / Dbl.fin 0 = Dbl.pinf := by
    intro a ha; show Dbl.div _ _ = _; simp [Dbl.div, ha.ne', not_lt.2 ha.le]
  have emax : ∀ a b : ℚ, cmax (Dbl.fin a) (Dbl.fin b) = Dbl.fin (cmax a b) := by
    intro a b
    unfold cmax
    simp only [gt_iff_lt, elt]
    split <;> rfl
  have emin : ∀ a b : ℚ, cmin (Dbl.fin a) (Dbl.fin b) = Dbl.fin (cmin a b) := by
    intro a b
    unfold cmin
    simp only [elt]
    split <;> rfl
  have ep1 : ∀ a : ℚ, cmin Dbl.pinf (Dbl.fin a) = Dbl.fin a := fun a => rfl
  have ep2 : ∀ a : ℚ, cmin (Dbl.fin a) Dbl.pinf = Dbl.fin a := fun a => rfl
  have ep3 : cmin Dbl.pinf Dbl.pinf = Dbl.pinf := rfl
  have ep4 : ∀ a : ℚ, cmax (Dbl.fin a) Dbl.pinf = Dbl.pinf := fun a => rfl
  have e1 : ((1 : Nat) : Dbl) = Dbl.fin 1 := by show Dbl.fin ((1 : Nat) : ℚ) = _; norm_num
  have ef0 : (if Dbl.fin eig < Dbl.fin ub then ((1 : Nat) : Dbl) else Dbl.fin ub / Dbl.fin eig)
      = Dbl.fin (if eig < ub then 1 else ub / eig) := by
    by_cases h : eig < ub
    · rw [if_pos h, if_pos ((elt _ _).2 h), e1]
    · rw [if_neg h, if_neg (fun h' => h ((elt _ _).1 h')), ediv _ _ (by linarith [not_lt.1 h])]
  unfold objFactor objFactorX
  simp only [ef0]
  generalize (if eig < ub then (1 : ℚ) else ub / eig) = f0
  simp only [emul, ele]
  by_cases hs : f0 * grad ≤ lb
  · rw [if_pos hs, if_pos hs]
    by_cases hE : eig = 0 <;> by_cases hG : grad = 0
    · subst hE hG; simp [ediv0 _ hub, ediv0 _ hlb, ep3, ep4]
    · subst hE; simp [ediv0 _ hub, ediv _ _ hG, ep1, emax, hG]
    · subst hG; simp [ediv0 _ hlb, ediv _ _ hE, ep2, emax, hE]
    · simp [ediv _ _ hE, ediv _ _ hG, emin, emax, hE, hG]
  · rw [if_neg hs, if_neg hs]; simp

/-- **C25** (false alarm): the status `QPSCALING_BOUNDS_NOT_SATISFIED` is also reported when the
scaled objective satisfies both configured bounds. -/
theorem C25_status_false_alarm : ∃ ub lb eig grad f : ℚ, 0 < ub ∧ 0 < lb ∧ 0 < eig ∧ 0 < grad ∧
    objFactorX ub lb eig grad = (some f, true) ∧ f * eig ≤ ub ∧ lb ≤ f * grad :=
  ⟨100, 1, 1, 1/2, 2, by norm_num, by norm_num, by norm_num, by norm_num, by decide +kernel,
    by norm_num, by norm_num⟩

/-- the Gershgorin estimate bounds the curvature of a symmetric Hessian in every direction -/
theorem C25_gershgorin (n : Nat) (A : Nat → Nat → K) (hA : ∀ r < n, ∀ c < n, A r c = A c r)
    (x : Nat → K) :
    |∑ r ∈ range n, x r * ∑ c ∈ range n, A r c * x c| ≤ gershMax n A * ∑ r ∈ range n, x r ^ 2 := by
  have hrow : ∀ r < n, ∑ c ∈ range n, |A r c| ≤ gershMax n A := by
    intro r hr
    have hfold : ∀ (l : List Nat) (m : K), m ≤ l.foldl (fun m i =>
        max m (max |A i i - ∑ j ∈ range n, (if j ≠ i then |A i j| else 0)|
          |A i i + ∑ j ∈ range n, (if j ≠ i then |A i j| else 0)|)) m ∧
        ∀ i ∈ l, max |A i i - ∑ j ∈ range n, (if j ≠ i then |A i j| else 0)|
          |A i i + ∑ j ∈ range n, (if j ≠ i then |A i j| else 0)| ≤ l.foldl (fun m i =>
        max m (max |A i i - ∑ j ∈ range n, (if j ≠ i then |A i j| else 0)|
          |A i i + ∑ j ∈ range n, (if j ≠ i then |A i j| else 0)|)) m := by
      intro l
      induction l with
      | nil => intro m; simp
      | cons a t ih =>
        intro m
        rw [List.foldl_cons]
        obtain ⟨h1, h2⟩ := ih (max m (max |A a a - ∑ j ∈ range n, (if j ≠ a then |A a j| else 0)|
          |A a a + ∑ j ∈ range n, (if j ≠ a then |A a j| else 0)|))
        refine ⟨le_trans (le_max_left _ _) h1, fun i hi => ?_⟩
        rcases List.mem_cons.1 hi with rfl | hi
        · exact le_trans (le_max_right _ _) h1
        · exact h2 i hi
    have hs : ∑ c ∈ range n, |A r c| = |A r r| + ∑ j ∈ range n, (if j ≠ r then |A r j| else 0) := by
      rw [← sum_erase_add (range n) _ (mem_range.2 hr), add_comm]
      congr 1
      rw [← sum_filter]
      refine sum_congr ?_ fun _ _ => rfl
      ext c
      simp [and_comm]
    have hR : 0 ≤ ∑ j ∈ range n, (if j ≠ r then |A r j| else 0) :=
      sum_nonneg fun j _ => by split <;> simp
    rw [hs]
    refine le_trans ?_ ((hfold (List.range n) 0).2 r (List.mem_range.2 hr))
    rcases le_total 0 (A r r) with h | h
    · rw [abs_of_nonneg h]
      exact le_trans (le_abs_self _) (le_max_right _ _)
    · rw [abs_of_nonpos h]
      refine le_trans ?_ (le_max_left _ _)
      rw [← abs_neg]
      refine le_trans (le_of_eq ?_) (le_abs_self _)
      ring
  calc |∑ r ∈ range n, x r * ∑ c ∈ range n, A r c * x c|
      ≤ ∑ r ∈ range n, |x r * ∑ c ∈ range n, A r c * x c| := abs_sum_le_sum_abs _ _
    _ ≤ ∑ r ∈ range n, ∑ c ∈ range n, |A r c| * ((x r ^ 2 + x c ^ 2) / 2) := by
        refine sum_le_sum fun r _ => ?_
        rw [mul_sum]
        refine le_trans (abs_sum_le_sum_abs _ _) (sum_le_sum fun c _ => ?_)
        have h1 : |x r * (A r c * x c)| = |A r c| * (|x r| * |x c|) := by
          rw [abs_mul, abs_mul]; ring
        rw [h1]
        refine mul_le_mul_of_nonneg_left ?_ (abs_nonneg _)
        nlinarith [sq_nonneg (|x r| - |x c|), sq_abs (x r), sq_abs (x c)]
    _ = ∑ r ∈ range n, x r ^ 2 * ∑ c ∈ range n, |A r c| := by
        have e1 : ∑ r ∈ range n, ∑ c ∈ range n, |A r c| * ((x r ^ 2 + x c ^ 2) / 2)
            = ∑ r ∈ range n, ∑ c ∈ range n, |A r c| * (x r ^ 2 / 2)
              + ∑ r ∈ range n, ∑ c ∈ range n, |A r c| * (x c ^ 2 / 2) := by
          rw [← sum_add_distrib]
          refine sum_congr rfl fun r _ => ?_
          rw [← sum_add_distrib]
          exact sum_congr rfl fun c _ => by ring
        have e2 : ∑ r ∈ range n, ∑ c ∈ range n, |A r c| * (x c ^ 2 / 2)
            = ∑ r ∈ range n, ∑ c ∈ range n, |A r c| * (x r ^ 2 / 2) := by
          rw [sum_comm]
          refine sum_congr rfl fun r hr => sum_congr rfl fun c hc => ?_
          rw [hA c (mem_range.1 hc) r (mem_range.1 hr)]
        rw [e1, e2, ← sum_add_distrib]
        refine sum_congr rfl fun r _ => ?_
        rw [← sum_add_distrib, mul_sum]
        exact sum_congr rfl fun c _ => by ring
    _ ≤ ∑ r ∈ range n, x r ^ 2 * gershMax n A :=
        sum_le_sum fun r hr => mul_le_mul_of_nonneg_left (hrow r (mem_range.1 hr)) (sq_nonneg _)
    _ = gershMax n A * ∑ r ∈ range n, x r ^ 2 := by rw [← sum_mul, mul_comm]

theorem foldl_cmax_ge (l : List Nat) (F : Nat → K → K) (hF : ∀ i m, m ≤ F i m) (m : K) :
    m ≤ l.foldl (fun m i => F i m) m := by
  induction l generalizing m with
  | nil => exact le_rfl
  | cons a t ih => exact le_trans (hF a m) (ih _)

theorem maxAbsEig_ge (q : Qp K) : 0 ≤ maxAbsEig q ∧
    ∀ i ≤ q.N, gershMax (q.st i).nux (q.st i).H ≤ maxAbsEig q := by
  have hF : ∀ i (m : K), m ≤ cmax (cmax m (gershMax (q.st i).nux (q.st i).H))
      (Res.nrmInf (2 * (q.st i).ns) (q.st i).Z) := by
    intro i m
    simp only [cmax_eq_max]
    exact le_trans (le_max_left _ _) (le_max_left _ _)
  refine ⟨foldl_cmax_ge _ _ hF 0, fun i hi => ?_⟩
  have : ∀ (l : List Nat) (m : K), i ∈ l → gershMax (q.st i).nux (q.st i).H ≤
      l.foldl (fun m i => cmax (cmax m (gershMax (q.st i).nux (q.st i).H))
        (Res.nrmInf (2 * (q.st i).ns) (q.st i).Z)) m := by
    intro l
    induction l with
    | nil => intro m h; exact absurd h (by simp)
    | cons a t ih =>
      intro m h
      rw [List.foldl_cons]
      rcases List.mem_cons.1 h with rfl | h
      · refine le_trans ?_ (foldl_cmax_ge t _ hF _)
        simp only [cmax_eq_max]
        exact le_trans (le_max_right _ _) (le_max_left _ _)
      · exact ih _ h
  exact this _ 0 (List.mem_range.2 (by omega))

theorem gradNorm_nonneg (q : Qp K) : 0 ≤ gradNorm q := by
  refine foldl_cmax_ge (List.range (q.N + 1)) (fun i m => cmax m
    |Res.nrmInf ((q.st i).nux + 2 * (q.st i).ns) (q.st i).g|) (fun i m => ?_) 0
  simp only [cmax_eq_max]
  exact le_max_left _ _

/-- **C25** (end to end): after objective scaling, the curvature of every symmetric stage Hessian of
the QP handed to the solver is bounded by the configured limit in every direction. -/
theorem C25_scaled_curvature (o : Opts K) (hub : 0 < o.ubMaxEig) (hlb : 0 < o.lbGrad)
    (hso : o.scaleObj = true) (q : Qp K) (m M : Mem K) (hM : scaleQp o q m = some M)
    (i : Nat) (hi : i ≤ q.N)
    (hsym : ∀ r < (q.st i).nux, ∀ c < (q.st i).nux, (q.st i).H r c = (q.st i).H c r) (x : Nat → K) :
    |∑ r ∈ range (q.st i).nux, x r * ∑ c ∈ range (q.st i).nux, (M.qp.st i).H r c * x c|
      ≤ o.ubMaxEig * ∑ r ∈ range (q.st i).nux, x r ^ 2 := by
  unfold scaleQp at hM
  rw [if_pos hso] at hM
  obtain ⟨f, hf, rfl⟩ := Option.map_eq_some_iff.1 hM
  have hne : maxAbsEig q ≠ 0 ∨ gradNorm q ≠ 0 := by
    by_contra hcon
    push Not at hcon
    unfold objFactorX at hf
    simp only [hcon.1, hcon.2, mul_zero, hlb.le, if_true] at hf
    exact absurd hf (by simp)
  obtain ⟨f', hf', hp, hle, _⟩ := C25_objective_factor o.ubMaxEig o.lbGrad _ _ hub hlb
    (maxAbsEig_ge q).1 (gradNorm_nonneg q) hne
  obtain rfl : f' = f := Option.some.inj (hf'.symm.trans hf)
  have eH : ∑ r ∈ range (q.st i).nux, x r * ∑ c ∈ range (q.st i).nux,
      ((scaleQpWith true o.scaleCon f' q m).qp.st i).H r c * x c
      = f' * ∑ r ∈ range (q.st i).nux, x r * ∑ c ∈ range (q.st i).nux, (q.st i).H r c * x c := by
    rw [mul_sum]
    refine sum_congr rfl fun r hr => ?_
    rw [mul_sum, mul_sum, mul_sum]
    refine sum_congr rfl fun c hc => ?_
    have : ((scaleQpWith true o.scaleCon f' q m).qp.st i).H r c = f' * (q.st i).H r c := by
      simp only [scaleQpWith, hi, if_true]
      cases o.scaleCon <;> simp [scaleStage, mem_range.1 hr, mem_range.1 hc]
    rw [this]; ring
  rw [eH, abs_mul, abs_of_pos hp]
  have hx : 0 ≤ ∑ r ∈ range (q.st i).nux, x r ^ 2 := sum_nonneg fun r _ => sq_nonneg _
  calc f' * |∑ r ∈ range (q.st i).nux, x r * ∑ c ∈ range (q.st i).nux, (q.st i).H r c * x c|
      ≤ f' * (gershMax (q.st i).nux (q.st i).H * ∑ r ∈ range (q.st i).nux, x r ^ 2) :=
        mul_le_mul_of_nonneg_left (C25_gershgorin _ _ hsym x) hp.le
    _ ≤ f' * (maxAbsEig q * ∑ r ∈ range (q.st i).nux, x r ^ 2) :=
        mul_le_mul_of_nonneg_left (mul_le_mul_of_nonneg_right ((maxAbsEig_ge q).2 i hi) hx) hp.le
    _ = f' * maxAbsEig q * ∑ r ∈ range (q.st i).nux, x r ^ 2 := by ring
    _ ≤ o.ubMaxEig * ∑ r ∈ range (q.st i).nux, x r ^ 2 := mul_le_mul_of_nonneg_right hle hx

/-- non-vacuity: a two-stage QP with symmetric Hessian meets the hypotheses -/
example : ∃ M, scaleQp ⟨true, true, 1, 4⟩ sharedQp sharedMem = some M ∧ 0 ≤ sharedQp.N ∧
    ∀ r < (sharedQp.st 0).nux, ∀ c < (sharedQp.st 0).nux,
      (sharedQp.st 0).H r c = (sharedQp.st 0).H c r := by
  have h : (scaleQp ⟨true, true, 1, 4⟩ sharedQp sharedMem).isSome = true := by decide +kernel
  obtain ⟨M, hM⟩ := Option.isSome_iff_exists.1 h
  exact ⟨M, hM, Nat.zero_le _, by decide +kernel⟩

theorem minScaling_le (q : Qp K) (sc : Nat → Nat → K) :
    minScaling q sc ≤ 1 ∧ ∀ i < q.N, ∀ j < (q.st i).ng, minScaling q sc ≤ sc i j := by
  have inner : ∀ (l : List Nat) (g : Nat → K) (m : K),
      l.foldl (fun m j => if g j < m then g j else m) m ≤ m ∧
      ∀ j ∈ l, l.foldl (fun m j => if g j < m then g j else m) m ≤ g j := by
    intro l g
    induction l with
    | nil => intro m; simp
    | cons a t ih =>
      intro m
      rw [List.foldl_cons]
      obtain ⟨h1, h2⟩ := ih (if g a < m then g a else m)
      have h3 : (if g a < m then g a else m) ≤ m ∧ (if g a < m then g a else m) ≤ g a := by
        split
        · next h => exact ⟨h.le, le_rfl⟩
        · next h => exact ⟨le_rfl, not_lt.1 h⟩
      refine ⟨h1.trans h3.1, fun j hj => ?_⟩
      rcases List.mem_cons.1 hj with rfl | hj
      · exact h1.trans h3.2
      · exact h2 j hj
  have outer : ∀ (l : List Nat) (m : K),
      l.foldl (fun m i => (List.range (q.st i).ng).foldl
        (fun m j => if sc i j < m then sc i j else m) m) m ≤ m ∧
      ∀ i ∈ l, ∀ j < (q.st i).ng, l.foldl (fun m i => (List.range (q.st i).ng).foldl
        (fun m j => if sc i j < m then sc i j else m) m) m ≤ sc i j := by
    intro l
    induction l with
    | nil => intro m; simp
    | cons a t ih =>
      intro m
      rw [List.foldl_cons]
      obtain ⟨h1, h2⟩ := ih ((List.range (q.st a).ng).foldl
        (fun m j => if sc a j < m then sc a j else m) m)
      obtain ⟨h3, h4⟩ := inner (List.range (q.st a).ng) (sc a) m
      refine ⟨h1.trans h3, fun i hi j hj => ?_⟩
      rcases List.mem_cons.1 hi with rfl | hi
      · exact h1.trans (h4 j (List.mem_range.2 hj))
      · exact h2 i hi j hj
  refine ⟨(outer (List.range q.N) 1).1, fun i hi j hj => ?_⟩
  exact (outer (List.range q.N) 1).2 i (List.mem_range.2 hi) j hj

/-- **C25** (smallest factor, partial): the factor used for the QP tolerances is at most every
constraint factor of the stages `0 … N-1`.  Missing: the terminal stage. -/
theorem C25_min_scaling_partial (q : Qp K) (sc : Nat → Nat → K) :
    minScaling q sc ≤ 1 ∧ ∀ i < q.N, ∀ j < (q.st i).ng, minScaling q sc ≤ sc i j :=
  minScaling_le q sc

/-- … and the terminal stage is indeed ignored: the reported minimum can be 1 although a terminal
constraint is scaled by any smaller factor. -/
theorem C25_min_scaling_ignores_terminal (q : Qp K) (sc sc' : Nat → Nat → K)
    (h : ∀ i < q.N, sc i = sc' i) : minScaling q sc = minScaling q sc' := by
  unfold minScaling
  have : ∀ (l : List Nat), (∀ i ∈ l, i < q.N) → ∀ m : K,
      l.foldl (fun m i => (List.range (q.st i).ng).foldl
        (fun m j => if sc i j < m then sc i j else m) m) m =
      l.foldl (fun m i => (List.range (q.st i).ng).foldl
        (fun m j => if sc' i j < m then sc' i j else m) m) m := by
    intro l
    induction l with
    | nil => intro _ m; rfl
    | cons a t ih =>
      intro hl m
      rw [List.foldl_cons, List.foldl_cons, h a (hl a (by simp))]
      exact ih (fun i hi => hl i (by simp [hi])) _
  exact this _ (fun i hi => List.mem_range.1 hi) 1

end Acados.QpScal
