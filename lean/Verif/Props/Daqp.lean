import Verif.Lemmas.DaqpKkt
import Verif.Props.DenseQp
/-!
# C75: DAQP is given an equivalent problem and its answer is translated back
-/
namespace Acados.Daqp
open Finset
open Acados.DenseQp (DQp row coef sl su lo up slb slackOf idxsOf WF Feasible obj vec)
set_option linter.unusedSectionVars false
variable {K : Type*} [Field K] [LinearOrder K] [IsStrictOrderedRing K]

/-- what is assumed of the routines around DAQP: the factorisation belongs to the Hessian, the reciprocal square root of
an admissible number is positive, and DAQP's answer solves the problem it was given -/
structure Good (e : Ext K) (q : DQp K) : Prop where
  chol : CholFor q.nv (DenseQp.fillUpper q.nv q.H) (e.potrf (DenseQp.fillUpper q.nv q.H))
  rsqrt : ∀ x, e.tol ≤ x → 0 < e.rsqrt x
  eps : 0 < e.eps

theorem Built.same {q q' : DQp K} (h : SameMat q q') {m : Mem K} (hb : Built q m) : Built q' m := by
  obtain ⟨h1, h2, h3, h4, h5, h6, h7, h8, h9, h10⟩ := h
  obtain ⟨nv, ne, nb, ng, ns, H, gz, A, b, Ct, idxb, rev, d, Z, mm, mask⟩ := q
  obtain ⟨nv', ne', nb', ng', ns', H', gz', A', b', Ct', idxb', rev', d', Z', mm', mask'⟩ := q'
  simp only at h1 h2 h3 h4 h5 h6 h7 h8 h9 h10
  subst h1 h2 h3 h4 h5 h6 h7 h8 h9 h10
  exact ⟨hb.chol, hb.Mf, hb.Mw, hb.sc, hb.kind⟩

theorem Good.same {e : Ext K} {q q' : DQp K} (h : SameMat q q') (hg : Good e q) : Good e q' :=
  ⟨by rw [h.nv, h.H]; exact hg.chol, hg.rsqrt, hg.eps⟩

theorem LongRows.same {e : Ext K} {q q' : DQp K} (h : SameMat q q') (hg : LongRows e q) : LongRows e q' := by
  obtain ⟨h1, h2, h3, h4, h5, h6, h7, h8, h9, h10⟩ := h
  obtain ⟨nv, ne, nb, ng, ns, H, gz, A, b, Ct, idxb, rev, d, Z, mm, mask⟩ := q
  obtain ⟨nv', ne', nb', ng', ns', H', gz', A', b', Ct', idxb', rev', d', Z', mm', mask'⟩ := q'
  simp only at h1 h2 h3 h4 h5 h6 h7 h8 h9 h10
  subst h1 h2 h3 h4 h5 h6 h7 h8 h9 h10
  exact hg

theorem update_init_false (e : Ext K) (hot : Bool) (q : DQp K) (old : Soft K) (m m' : Mem K)
    (h : update e hot q old m = (m', none)) : m'.init = m.init := by
  unfold update at h
  simp only at h
  by_cases hu : (!hot || !m.init) = true
  all_goals
    simp only [hu, if_true, if_false, Bool.false_eq_true] at h
    split at h
    · simp only [Prod.mk.injEq, and_true] at h
      rw [← h]
    · first
        | (split at h
           · simp only [Prod.mk.injEq, and_true] at h
             rw [← h]
           · simp at h)
        | simp at h

theorem history_built (e : Ext K) (q : DQp K) (hg : Good e q) (hl : LongRows e q) (h : List (Call K))
    (hs : ∀ c ∈ h, SameMat q c.q) : ∀ m m' : Mem K, (m.init = false ∨ Built q m) → history e m h = some m' →
      (m'.init = false ∨ Built q m') := by
  induction h with
  | nil => intro m m' hm he; cases he; exact hm
  | cons c h ih =>
    intro m m' hm he
    unfold history at he
    rw [List.foldlM_cons] at he
    simp only at he
    by_cases hc : ((update e c.hot c.q c.old m).2.isSome || c.hot) = true
    · rw [if_pos hc] at he
      refine ih (fun c' hc' => hs c' (List.mem_cons_of_mem _ hc')) _ m' ?_ he
      have hsc := hs c List.mem_cons_self
      rcases hup : update e c.hot c.q c.old m with ⟨m1, _ | r⟩
      · rw [hup] at hc
        simp only [Option.isSome_none, Bool.false_or] at hc
        by_cases hi : m.init = true
        · refine Or.inr (built_hot e c.q q c.old m m1 none hi ?_ (by rw [← hc]; exact hup)).1
          rcases hm with hm | hm
          · rw [hi] at hm; exact absurd hm (by decide)
          · exact hm
        · refine Or.inl ?_
          rw [update_init_false e c.hot c.q c.old m m1 hup]
          simpa using hi
      · by_cases hi : c.hot = false ∨ m.init = false
        · have hb := built_fresh e c.hot c.q c.old m m1 r hi (hg.same hsc).chol (hl.same hsc) hg.rsqrt hup
          exact Or.inr (hb.same ⟨hsc.nv.symm, hsc.ne.symm, hsc.nb.symm, hsc.ng.symm, hsc.ns.symm, hsc.H.symm, hsc.A.symm,
            hsc.Ct.symm, hsc.idxb.symm, hsc.rev.symm⟩)
        · push Not at hi
          have h1 : c.hot = true := by simpa using hi.1
          have h2 : m.init = true := by simpa using hi.2
          refine Or.inr (built_hot e c.q q c.old m m1 (some r) h2 ?_ (by rw [← h1]; exact hup)).1
          rcases hm with hm | hm
          · rw [h2] at hm; exact absurd hm (by decide)
          · exact hm
    · rw [if_neg hc] at he
      exact absurd he (by simp)

/-! ## The returned point satisfies the optimality conditions -/

/-- A call that builds its matrices (not hot-started, or the first one): if the set-up succeeds and DAQP answers the
least-distance problem correctly, then the returned variables, slacks and multipliers satisfy the optimality conditions of
the QP (with quadratic slack penalties raised to `1e-8`) in acados' order and signs.  Full claim: for every well-formed QP.
Missing: rows shorter than the tolerance (`C75_short_row_false`), penalties decreasing at the slack bound
(`C75_penalty_false`), slack bounds that are masked (`C75_slack_mask_false`), slacks shared by constraints
(`C75_shared_slack_false`). -/
theorem C75_kkt_partial (e : Ext K) (hot : Bool) (q : DQp K) (hq : WF q) (hg : Good e q) (hl : LongRows e q)
    (hp : Pen e q) (old : Soft K) (m m' : Mem K) (hot' : hot = false ∨ m.init = false)
    (v : Nat → K) (s : Soft K) (l : Ldp K) (h : update e hot q old m = (m', some (v, s, l)))
    (ans : Ldp K → (Nat → K) × List (Nat × K)) (hsol : LdpSol l (ans l).1 (ans l).2)
    (hin : Inside e q (toX m' v (ans l).1)) (o : Out K) :
    ∃ r, call e hot q old m ans o = (m', some r) ∧ KktE (solved e q) r.v r.lam r.pi ∧ ∀ j < q.nv, r.v j = toX m' v (ans l).1 j := by
  obtain ⟨a1, a2, a3, a4, a5, a6, a7, a8, a9, a10, a11, a12, -⟩ := update_some e hot q old m m' v s l h
  have hb := built_fresh e hot q old m m' _ hot' hg.chol hl hg.rsqrt h
  refine ⟨fill e m' q s (toX m' v (ans l).1) (ans l).2 o, ?_,
    kkt_core e hg.eps q hq hp m' hb old l v s a1 a2 a3 a4 a5 a6 a7 a8 a9 a10 a11 a12 _ _ hsol hin o, ?_⟩
  · unfold call; rw [h]; rfl
  · intro j hj
    exact fill_v e m' q hq s _ _ o j hj

/-- Hot starts: after a successful call that built the matrices, any number of calls with the same matrices (arbitrary
vectors, bounds, masks and hot start flags) may follow, of which only hot-started ones fail; then the next call has the
same guarantee.  Not true if a call that rebuilds the matrices fails (`C75_failed_update_false`) or if the matrices change
(`C75_hot_stale_false`). -/
theorem C75_history_partial (e : Ext K) (hot : Bool) (q : DQp K) (hq : WF q) (hg : Good e q) (hl : LongRows e q)
    (hp : Pen e q) (old : Soft K) (m0 m m' : Mem K) (h0 : m0.init = false) (hist : List (Call K))
    (hs : ∀ c ∈ hist, SameMat q c.q) (hh : history e m0 hist = some m)
    (v : Nat → K) (s : Soft K) (l : Ldp K) (h : update e hot q old m = (m', some (v, s, l)))
    (ans : Ldp K → (Nat → K) × List (Nat × K)) (hsol : LdpSol l (ans l).1 (ans l).2)
    (hin : Inside e q (toX m' v (ans l).1)) (o : Out K) :
    ∃ r, call e hot q old m ans o = (m', some r) ∧ KktE (solved e q) r.v r.lam r.pi ∧ ∀ j < q.nv, r.v j = toX m' v (ans l).1 j := by
  by_cases hc : hot = false ∨ m.init = false
  · exact C75_kkt_partial e hot q hq hg hl hp old m m' hc v s l h ans hsol hin o
  · push Not at hc
    have h1 : hot = true := by simpa using hc.1
    have h2 : m.init = true := by simpa using hc.2
    have hb : Built q m := by
      rcases history_built e q hg hl hist hs m0 m (Or.inl h0) hh with hb | hb
      · rw [h2] at hb; exact absurd hb (by decide)
      · exact hb
    obtain ⟨a1, a2, a3, a4, a5, a6, a7, a8, a9, a10, a11, a12, -⟩ := update_some e hot q old m m' v s l h
    have hb' := (built_hot e q q old m m' _ h2 hb (by rw [← h1]; exact h)).1
    refine ⟨fill e m' q s (toX m' v (ans l).1) (ans l).2 o, ?_,
      kkt_core e hg.eps q hq hp m' hb' old l v s a1 a2 a3 a4 a5 a6 a7 a8 a9 a10 a11 a12 _ _ hsol hin o, ?_⟩
    · unfold call; rw [h]; rfl
    · intro j hj
      exact fill_v e m' q hq s _ _ o j hj

/-- What the optimality conditions mean: no point that satisfies the constraints (and all slack bounds, masked or not)
has a smaller objective. -/
theorem C75_optimal (q : DQp K) (hq : WF q) (hsym : ∀ i, i < q.nv → ∀ j, j < q.nv → q.H i j = q.H j i)
    (hpsd : ∀ d : Nat → K, 0 ≤ ∑ i ∈ range q.nv, ∑ j ∈ range q.nv, q.H i j * d i * d j)
    (hZ : ∀ t, t < 2 * q.ns → 0 ≤ q.Z t) (v lam pi : Nat → K) (hk : KktE q v lam pi)
    (w : Nat → K) (hw : Feasible q w) (hwS : ∀ t, t < 2 * q.ns → slb q t ≤ w (q.nv + t)) : obj q v ≤ obj q w := by
  obtain ⟨N, hN⟩ : ∃ N, N = q.nb + q.ng := ⟨_, rfl⟩
  -- drop masked bounds by moving them out of the way, equalities by moving them into the gradient
  let d' : Nat → K := fun i =>
    if i < N then (if q.mask i = 0 then min (row q v i + sl q v i) (row q w i + sl q w i) else q.d i)
    else if i < 2 * N then
      (if q.mask i = 0 then - max (row q v (i - N) - su q v (i - N)) (row q w (i - N) - su q w (i - N)) else q.d i)
    else q.d i
  let q' : DQp K := { q with ne := 0, mask := fun _ => 1, d := d', gz := fun j => if j < q.nv then q.gz j + ∑ e ∈ range q.ne, q.A e j * pi e else q.gz j }
  have hlo : ∀ i < N, lo q' i = if q.mask i = 0 then min (row q v i + sl q v i) (row q w i + sl q w i) else q.d i := by
    intro i hi
    change d' i = _
    simp only [d', if_pos hi]
  have hup : ∀ i < N, up q' i = if q.mask (N + i) = 0 then max (row q v i - su q v i) (row q w i - su q w i) else -q.d (N + i) := by
    intro i hi
    change -d' (q.nb + q.ng + i) = _
    rw [← hN]
    simp only [d']
    rw [if_neg (by omega), if_pos (by omega), Nat.add_sub_cancel_left]
    split_ifs <;> ring
  have hslb : ∀ t, slb q' t = slb q t := by
    intro t
    change d' (2 * q.nb + 2 * q.ng + t) = q.d (2 * q.nb + 2 * q.ng + t)
    simp only [d']
    rw [if_neg (by omega), if_neg (by omega)]
  have hq' : WF q' := ⟨hq.idxb, hq.rev, hq.once, hq.used⟩
  have hfv : ∀ (x : Nat → K), Feasible q x → (∀ t, t < 2 * q.ns → slb q t ≤ x (q.nv + t)) →
      (∀ i < N, q.mask i = 0 → min (row q v i + sl q v i) (row q w i + sl q w i) ≤ row q x i + sl q x i) →
      (∀ i < N, q.mask (N + i) = 0 → row q x i - su q x i ≤ max (row q v i - su q v i) (row q w i - su q w i)) →
      Feasible q' x := by
    intro x hx hxs hxl hxu
    refine ⟨fun e he => absurd he (Nat.not_lt_zero _), ?_, ?_, ?_⟩
    · intro i hi _
      rw [hlo i (hN ▸ hi)]
      by_cases h0 : q.mask i = 0
      · rw [if_pos h0]; exact hxl i (hN ▸ hi) h0
      · rw [if_neg h0]; exact hx.lower i hi h0
    · intro i hi _
      rw [hup i (hN ▸ hi)]
      by_cases h0 : q.mask (N + i) = 0
      · rw [if_pos h0]; exact hxu i (hN ▸ hi) h0
      · rw [if_neg h0, hN]; exact hx.upper i hi (hN ▸ h0)
    · intro t ht _
      rw [hslb]; exact hxs t ht
  have hk' : DenseQp.Kkt q' v lam := by
    refine ⟨hfv v hk.feas hk.bnd (fun i _ _ => min_le_left _ _) (fun i _ _ => le_max_left _ _), hk.nonneg, ?_, ?_, ?_, ?_, ?_, ?_⟩
    · intro j hj
      have := hk.stat j hj
      change ∑ k ∈ range q.nv, q.H j k * v k + (if j < q.nv then q.gz j + ∑ e ∈ range q.ne, q.A e j * pi e else q.gz j) = _
      rw [if_pos hj, ← add_assoc]
      exact this
    · intro i hi hs
      have := hk.statL i hi hs
      change q.Z (slackOf q i) * v (q.nv + slackOf q i) + (if q.nv + slackOf q i < q.nv then _ else _) = _
      rw [if_neg (by omega)]
      exact this
    · intro i hi hs
      have := hk.statU i hi hs
      change q.Z (q.ns + slackOf q i) * v (q.nv + q.ns + slackOf q i)
        + (if q.nv + q.ns + slackOf q i < q.nv then _ else _) = _
      rw [if_neg (by omega)]
      exact this
    · intro i hi
      by_cases h0 : q.mask i = 0
      · rw [hk.masked i (by change i < q.nb + q.ng at hi; omega) h0, zero_mul]
      · rw [hlo i (hN ▸ hi), if_neg h0]; exact hk.compL i hi
    · intro i hi
      change i < q.nb + q.ng at hi
      by_cases h0 : q.mask (N + i) = 0
      · have : lam (q'.nb + q'.ng + i) = 0 := hk.masked (q.nb + q.ng + i) (by omega) (hN ▸ h0)
        rw [this, zero_mul]
      · rw [hup i (hN ▸ hi), if_neg h0, hN]; exact hk.compU i hi
    · intro t ht
      rw [hslb]; exact hk.compS t ht
  have hobj : ∀ x : Nat → K, Feasible q x → obj q' x = obj q x + ∑ e ∈ range q.ne, q.b e * pi e := by
    intro x hx
    have h1 : ∑ i ∈ range q.nv, (if i < q.nv then q.gz i + ∑ e ∈ range q.ne, q.A e i * pi e else q.gz i) * x i
        = ∑ i ∈ range q.nv, q.gz i * x i + ∑ e ∈ range q.ne, q.b e * pi e := by
      have h2 : ∀ e ∈ range q.ne, q.b e * pi e = ∑ i ∈ range q.nv, q.A e i * pi e * x i := by
        intro e he
        rw [← hx.eq e (mem_range.1 he), sum_mul]
        exact sum_congr rfl fun i _ => by ring
      rw [sum_congr rfl h2, sum_comm, ← sum_add_distrib]
      refine sum_congr rfl fun i hi => ?_
      rw [if_pos (mem_range.1 hi), add_mul, sum_mul]
    have h3 : ∀ j ∈ range (2 * q.ns), (q.Z j * x (q.nv + j) * x (q.nv + j) / 2
        + (if q.nv + j < q.nv then q.gz (q.nv + j) + ∑ e ∈ range q.ne, q.A e (q.nv + j) * pi e else q.gz (q.nv + j)) * x (q.nv + j))
        = q.Z j * x (q.nv + j) * x (q.nv + j) / 2 + q.gz (q.nv + j) * x (q.nv + j) := by
      intro j _
      rw [if_neg (by omega)]
    unfold obj
    change (∑ i ∈ range q.nv, ∑ j ∈ range q.nv, q.H i j * x i * x j) / 2
        + ∑ i ∈ range q.nv, (if i < q.nv then q.gz i + ∑ e ∈ range q.ne, q.A e i * pi e else q.gz i) * x i
        + ∑ j ∈ range (2 * q.ns), (q.Z j * x (q.nv + j) * x (q.nv + j) / 2
          + (if q.nv + j < q.nv then q.gz (q.nv + j) + ∑ e ∈ range q.ne, q.A e (q.nv + j) * pi e else q.gz (q.nv + j)) * x (q.nv + j)) = _
    rw [h1, sum_congr rfl h3]
    ring
  have := DenseQp.C48_kkt_optimal q' hq' (fun _ => rfl) hsym hpsd hZ v lam hk' w
    (hfv w hw hwS (fun i _ _ => min_le_right _ _) (fun i _ _ => le_max_right _ _))
  rw [hobj v hk.feas, hobj w hw] at this
  linarith

/-- Together: the returned point is a global minimum of the QP with raised slack penalties. -/
theorem C75_global_partial (e : Ext K) (hot : Bool) (q : DQp K) (hq : WF q) (hg : Good e q) (hl : LongRows e q)
    (hp : Pen e q) (old : Soft K) (m0 m m' : Mem K) (h0 : m0.init = false) (hist : List (Call K))
    (hs : ∀ c ∈ hist, SameMat q c.q) (hh : history e m0 hist = some m)
    (v : Nat → K) (s : Soft K) (l : Ldp K) (h : update e hot q old m = (m', some (v, s, l)))
    (ans : Ldp K → (Nat → K) × List (Nat × K)) (hsol : LdpSol l (ans l).1 (ans l).2)
    (hin : Inside e q (toX m' v (ans l).1)) (o : Out K) :
    ∃ r, call e hot q old m ans o = (m', some r) ∧ Feasible q r.v
      ∧ ∀ w, Feasible q w → (∀ t, t < 2 * q.ns → slb q t ≤ w (q.nv + t)) → obj (solved e q) r.v ≤ obj (solved e q) w := by
  obtain ⟨r, h1, h2, -⟩ := C75_history_partial e hot q hq hg hl hp old m0 m m' h0 hist hs hh v s l h ans hsol hin o
  obtain ⟨L, hL, -⟩ := hg.chol
  refine ⟨r, h1, ⟨h2.feas.eq, h2.feas.lower, h2.feas.upper, h2.feas.slack⟩, fun w hw hwS => ?_⟩
  refine C75_optimal (solved e q) ⟨hq.idxb, hq.rev, hq.once, hq.used⟩ ?_ ?_ ?_ r.v r.lam r.pi h2 w
    ⟨hw.eq, hw.lower, hw.upper, hw.slack⟩ hwS
  · intro i hi j hj
    change DenseQp.fillUpper q.nv q.H i j = DenseQp.fillUpper q.nv q.H j i
    rw [← hL i hi j hj, ← hL j hj i hi]
    exact sum_congr rfl fun k _ => mul_comm _ _
  · intro d
    change 0 ≤ ∑ i ∈ range q.nv, ∑ j ∈ range q.nv, DenseQp.fillUpper q.nv q.H i j * d i * d j
    have : ∑ i ∈ range q.nv, ∑ j ∈ range q.nv, DenseQp.fillUpper q.nv q.H i j * d i * d j
        = ∑ k ∈ range q.nv, (∑ i ∈ range q.nv, L i k * d i) * (∑ i ∈ range q.nv, L i k * d i) := by
      have e1 : ∀ i ∈ range q.nv, ∀ j ∈ range q.nv, DenseQp.fillUpper q.nv q.H i j * d i * d j
          = ∑ k ∈ range q.nv, L i k * d i * (L j k * d j) := by
        intro i hi j hj
        rw [← hL i (mem_range.1 hi) j (mem_range.1 hj), sum_mul, sum_mul]
        exact sum_congr rfl fun k _ => by ring
      rw [sum_congr rfl fun i hi => sum_congr rfl fun j hj => e1 i hi j hj]
      simp only [sum_mul_sum]
      rw [sum_congr rfl fun i _ => sum_comm, sum_comm]
    rw [this]
    exact sum_nonneg fun k _ => mul_self_nonneg _
  · intro t _
    exact hg.eps.le.trans (le_max_left _ _)

/-! ## Concrete cases -/

instance (e : Ext ℚ) (q : DQp ℚ) : Decidable (LongRows e q) := by unfold LongRows; infer_instance
instance (e : Ext ℚ) (q : DQp ℚ) : Decidable (Pen e q) := by unfold Pen; infer_instance
instance (e : Ext ℚ) (q : DQp ℚ) (x : Nat → ℚ) : Decidable (Inside e q x) := by unfold Inside; infer_instance

/-- square roots of the numbers used below -/
def root (x : ℚ) : ℚ := if x = 4 then 2 else if x = 10 ^ 12 then 10 ^ 6 else 1

/-- routines for diagonal Hessians with entries 1, 4 and 10^12, and the constants of DAQP and acados -/
def ext : Ext ℚ :=
  { potrf := fun H => ⟨fun b j => b j / root (H j j), fun b j => b j / root (H j j)⟩
    rsqrt := fun x => if x = 1 / 4 then 2 else 1
    check := fun up lo => decide (up 0 < lo 0)
    big := 10 ^ 30, tol := 1 / 10 ^ 11, eps := 1 / 10 ^ 8 }

theorem root_pos (x : ℚ) : 0 < root x := by unfold root; split_ifs <;> norm_num

/-- `ext.potrf` is right for diagonal Hessians with these entries -/
theorem ext_chol (n : Nat) (H : Nat → Nat → ℚ) (hd : ∀ i < n, ∀ j < n, H i j = if i = j then root (H i i) * root (H i i) else 0) :
    CholFor n H (ext.potrf H) := by
  refine ⟨fun i j => if i = j then root (H i i) else 0, ?_, ?_, ?_⟩
  · intro i hi j hj
    rw [sum_eq_single i]
    · rw [hd i hi j hj]
      by_cases h : i = j
      · subst h; simp
      · simp [h, Ne.symm h]
    · intro b _ hb; simp [Ne.symm hb]
    · intro h; exact absurd (mem_range.2 hi) h
  · intro b i hi
    rw [sum_eq_single i]
    · have := (root_pos (H i i)).ne'
      simp only [if_true, ext]
      field_simp
    · intro k _ hk; simp [Ne.symm hk]
    · intro h; exact absurd (mem_range.2 hi) h
  · intro b i hi
    rw [sum_eq_single i]
    · have := (root_pos (H i i)).ne'
      simp only [if_true, ext]
      field_simp
    · intro k _ hk; simp [hk]
    · intro h; exact absurd (mem_range.2 hi) h

def soft0 : Soft ℚ := ⟨fun _ => 7, fun _ => 7, fun _ => 7, fun _ => 7, fun _ => 7, fun _ => 7⟩
def mem0 : Mem ℚ := ⟨⟨fun b => b, fun b => b⟩, fun _ _ => 7, fun _ _ => 7, fun _ => 7, fun _ => .hard, false⟩
def out0 : Out ℚ := ⟨fun _ => 7, fun _ => 7, fun _ => 7⟩

/-- `2 x0² - 8 x0 + x1²/2` with `-1 ≤ x0 ≤ 3`, `x1 = 1` and the soft constraint `2 x0 ≤ 2 + su` -/
def ex : DQp ℚ :=
  { nv := 2, ne := 1, nb := 1, ng := 1, ns := 1
    H := fun i j => if i = j then (if i = 0 then 4 else 1) else 0
    gz := vec [-8, 0, 1, 1]
    A := fun _ j => if j = 1 then 1 else 0, b := fun _ => 1, Ct := fun j _ => if j = 0 then 2 else 0
    idxb := fun _ => 0
    idxsRev := fun i => if i = 1 then 0 else -1
    d := vec [-1, -10, -3, -2, 0, 0]
    Z := fun _ => 1, m := fun _ => 0, mask := fun i => if i = 1 then 0 else 1 }

theorem ex_wf : WF ex := ⟨by decide, by decide, by decide, by decide⟩
theorem ex_good : Good ext ex :=
  ⟨ext_chol 2 _ (by decide +kernel), fun x _ => by unfold ext; simp only; split_ifs <;> norm_num, by decide +kernel⟩

/-- memory, LDP of the first call and of a hot-started second call, and DAQP's answer -/
def exM : Mem ℚ := (update ext false ex soft0 mem0).1
def exR : (Nat → ℚ) × Soft ℚ × Ldp ℚ := (update ext false ex soft0 mem0).2.get (by decide +kernel)
def exHist : List (Call ℚ) := [⟨false, { ex with d := vec [-2, -10, -3, -2, 0, 0] }, soft0⟩]
def exM1 : Mem ℚ := (history ext mem0 exHist).get (by decide +kernel)
def exM2 : Mem ℚ := (update ext true ex soft0 exM1).1
def exH : (Nat → ℚ) × Soft ℚ × Ldp ℚ := (update ext true ex soft0 exM1).2.get (by decide +kernel)
def exAns : (Nat → ℚ) × List (Nat × ℚ) := (vec [-3/2, 1], [(1, 3/2), (2, -1)])

theorem exR_sol : LdpSol exR.2.2 exAns.1 exAns.2 :=
  ⟨by decide +kernel, by decide +kernel, by decide +kernel, by decide +kernel, by decide +kernel, by decide +kernel,
    by decide +kernel⟩
theorem exH_sol : LdpSol exH.2.2 exAns.1 exAns.2 :=
  ⟨by decide +kernel, by decide +kernel, by decide +kernel, by decide +kernel, by decide +kernel, by decide +kernel,
    by decide +kernel⟩

theorem ex_update : update ext false ex soft0 mem0 = (exM, some (exR.1, exR.2.1, exR.2.2)) :=
  Prod.ext rfl (Option.some_get _).symm

/-- the hypotheses hold for a QP with an active soft constraint, a masked bound and an equality; the result is
`x = (5/4, 1)`, `su = 1/2` -/
example : ∃ r, call ext false ex soft0 mem0 (fun _ => exAns) out0 = (exM, some r) ∧ KktE (solved ext ex) r.v r.lam r.pi
    ∧ ∀ j < 2, r.v j = toX exM exR.1 exAns.1 j :=
  C75_kkt_partial ext false ex ex_wf ex_good (by decide +kernel) (by decide +kernel) soft0 mem0 exM (Or.inl rfl) _ _ _
    ex_update (fun _ => exAns) exR_sol (by decide +kernel) out0

example : ((call ext false ex soft0 mem0 (fun _ => exAns) out0).2.map fun r =>
    ((List.range 4).map r.v, (List.range 6).map r.lam, r.pi 0)) = some ([5/4, 1, 0, 1/2], [0, 0, 0, 3/2, 1, 0], -1) := by
  decide +kernel

/-- the same after a first call with other bounds, hot-started -/
example : ∃ r, call ext true ex soft0 exM1 (fun _ => exAns) out0 = (exM2, some r)
    ∧ KktE (solved ext ex) r.v r.lam r.pi ∧ ∀ j < 2, r.v j = toX exM2 exH.1 exAns.1 j :=
  C75_history_partial ext true ex ex_wf ex_good (by decide +kernel) (by decide +kernel) soft0 mem0 exM1 exM2 rfl exHist
    (by intro c hc; rw [exHist, List.mem_singleton] at hc; subst hc; exact ⟨rfl, rfl, rfl, rfl, rfl, rfl, rfl, rfl, rfl, rfl⟩)
    (Option.some_get _).symm _ _ _ (Prod.ext rfl (Option.some_get _).symm) (fun _ => exAns) exH_sol (by decide +kernel) out0

/-! ## What is not true -/

/-- one variable with a bound: `h x²/2 + g x`, `lb ≤ x ≤ ub` -/
def box (h g lb ub : ℚ) : DQp ℚ :=
  { nv := 1, ne := 0, nb := 1, ng := 0, ns := 0
    H := fun _ _ => h, gz := fun _ => g
    A := fun _ _ => 0, b := fun _ => 0, Ct := fun _ _ => 0
    idxb := fun _ => 0, idxsRev := fun _ => -1
    d := vec [lb, -ub]
    Z := fun _ => 1, m := fun _ => 0, mask := fun _ => 1 }

theorem box_wf (h g lb ub : ℚ) : WF (box h g lb ub) :=
  ⟨fun _ _ => Nat.one_pos, fun _ _ => Or.inl rfl, fun _ _ _ _ hh => absurd rfl hh, fun s hs => absurd hs (Nat.not_lt_zero s)⟩

theorem box_good (h g lb ub : ℚ) (hh : h = root h * root h) : Good ext (box h g lb ub) :=
  ⟨ext_chol 1 _ (by
      intro i hi j hj
      obtain rfl : i = 0 := by omega
      obtain rfl : j = 0 := by omega
      rw [if_pos rfl]
      exact hh), ex_good.rsqrt, ex_good.eps⟩

/-- `LdpSol` for one constraint that is not considered -/
theorem ldpSol_nil (l : Ldp ℚ) (u : Nat → ℚ) (hm : l.m = 1) (hk : l.kind 0 = .ign) (hu : ∀ j < l.n, u j = 0) :
    LdpSol l u [] := by
  have h0 : ∀ i, i < l.m → l.kind i = .ign := by
    intro i hi
    obtain rfl : i = 0 := by omega
    exact hk
  refine ⟨List.nodup_nil, by simp, fun j hj => by simpa using hu j hj, by simp, ?_, ?_, ?_⟩
  all_goals
    intro i hi hh
    rw [h0 i hi] at hh
    exact absurd hh (by decide)

/-- A bound on a variable with a large Hessian entry (`10^12`) counts as an empty row: if it excludes 0 the feasible QP is
reported infeasible, otherwise the bound is dropped and the solution violates it. -/
theorem C75_short_row_false :
    (∃ (q : DQp ℚ) (v : Nat → ℚ), WF q ∧ Good ext q ∧ Pen ext q ∧ Feasible q v ∧ (update ext false q soft0 mem0).2.isNone)
    ∧ ∃ (q : DQp ℚ) (r : Out ℚ), WF q ∧ Good ext q ∧ Pen ext q
      ∧ (∃ s, (update ext false q soft0 mem0).2 = some s ∧ LdpSol s.2.2 (fun _ => 0) [])
      ∧ (call ext false q soft0 mem0 (fun _ => (fun _ => 0, [])) out0).2 = some r ∧ ¬ Feasible q r.v := by
  refine ⟨⟨box (10 ^ 12) 0 1 2, fun _ => 1, box_wf _ _ _ _, box_good _ _ _ _ (by decide +kernel), by decide +kernel,
    DenseQp.feasible_dec _ _ (by decide +kernel), by decide +kernel⟩,
    box (10 ^ 12) (-2 * 10 ^ 12) (-1) 1,
    (call ext false (box (10 ^ 12) (-2 * 10 ^ 12) (-1) 1) soft0 mem0 (fun _ => (fun _ => 0, [])) out0).2.get (by decide +kernel),
    box_wf _ _ _ _, box_good _ _ _ _ (by decide +kernel), by decide +kernel, ⟨_, (Option.some_get (by decide +kernel)).symm, ?_⟩,
    (Option.some_get _).symm, fun h => ?_⟩
  · exact ldpSol_nil _ _ (by decide +kernel) (by decide +kernel) fun _ _ => rfl
  · exact absurd (h.upper 0 (by decide) (by decide +kernel)) (by decide +kernel)

/-- An equality with an empty row and a nonzero right-hand side is skipped: an infeasible QP is reported solved. -/
theorem C75_empty_equality_false : ∃ (q : DQp ℚ) (r : Out ℚ), WF q ∧ Good ext q ∧ Pen ext q
    ∧ (∃ s, (update ext false q soft0 mem0).2 = some s ∧ LdpSol s.2.2 (fun _ => 0) [])
    ∧ (call ext false q soft0 mem0 (fun _ => (fun _ => 0, [])) out0).2 = some r ∧ ∀ v, ¬ Feasible q v := by
  let q : DQp ℚ := { box 1 0 0 0 with nb := 0, ne := 1, b := fun _ => 1 }
  refine ⟨q, (call ext false q soft0 mem0 (fun _ => (fun _ => 0, [])) out0).2.get (by decide +kernel),
    ⟨fun _ h => absurd h (Nat.not_lt_zero _), fun _ _ => Or.inl rfl, fun _ _ _ _ hh => absurd rfl hh, fun s hs => absurd hs (Nat.not_lt_zero s)⟩,
    ⟨(box_good 1 0 0 0 (by decide +kernel)).chol, ex_good.rsqrt, ex_good.eps⟩, by decide +kernel,
    ⟨_, (Option.some_get (by decide +kernel)).symm, ?_⟩, (Option.some_get _).symm, fun v h => ?_⟩
  · exact ldpSol_nil _ _ (by decide +kernel) (by decide +kernel) fun _ _ => rfl
  · have := h.eq 0 (by decide)
    simp [q, box] at this

/-- one variable with a soft bound `lb - sl ≤ x ≤ ub + su`, slack bounds `t`, penalties `s²/2 + z s` -/
def sbox (g lb ub t z : ℚ) : DQp ℚ :=
  { box 1 g lb ub with
    ns := 1, gz := vec [g, z, z], idxsRev := fun _ => 0, d := vec [lb, -ub, t, t] }

theorem sbox_wf (g lb ub t z : ℚ) : WF (sbox g lb ub t z) := by
  refine ⟨fun _ _ => Nat.one_pos, fun _ _ => Or.inr ⟨le_rfl, Int.one_pos⟩, fun i hi j hj _ _ => ?_, fun s hs => ⟨0, Nat.one_pos, ?_⟩⟩
  · change i < 1 at hi; change j < 1 at hj; omega
  · change s < 1 at hs
    obtain rfl : s = 0 := by omega
    rfl

theorem sbox_good (g lb ub t z : ℚ) : Good ext (sbox g lb ub t z) :=
  ⟨(box_good 1 g lb ub (by decide +kernel)).chol, ex_good.rsqrt, ex_good.eps⟩

/-- A slack penalty that decreases at the slack bound (`s²/2 - 2 s`, `s ≥ 0`, minimum at `s = 2`): the slack is left at its
bound and its multiplier is negative. -/
theorem C75_penalty_false : ∃ (q : DQp ℚ) (r : Out ℚ) (w : Nat → ℚ), WF q ∧ Good ext q ∧ LongRows ext q
    ∧ (∃ s, (update ext false q soft0 mem0).2 = some s ∧ LdpSol s.2.2 (fun _ => 0) [])
    ∧ (call ext false q soft0 mem0 (fun _ => (fun _ => 0, [])) out0).2 = some r
    ∧ Feasible q w ∧ obj (solved ext q) w < obj (solved ext q) r.v ∧ r.lam 2 < 0 := by
  refine ⟨sbox 0 (-1) 1 0 (-2), (call ext false (sbox 0 (-1) 1 0 (-2)) soft0 mem0 (fun _ => (fun _ => 0, [])) out0).2.get
      (by decide +kernel), vec [0, 2, 2], sbox_wf _ _ _ _ _, sbox_good _ _ _ _ _, by decide +kernel,
    ⟨_, (Option.some_get (by decide +kernel)).symm, ?_⟩, (Option.some_get _).symm,
    DenseQp.feasible_dec _ _ (by decide +kernel), by decide +kernel, by decide +kernel⟩
  exact ⟨by decide +kernel, by decide +kernel, by decide +kernel, by decide +kernel, by decide +kernel, by decide +kernel,
    by decide +kernel⟩

/-- Masks of slack bounds are not read: with the masked bound `s ≥ 1` the slacks stay at 1 although 0 is cheaper. -/
theorem C75_slack_mask_false : ∃ (q : DQp ℚ) (r : Out ℚ) (w : Nat → ℚ), WF q ∧ Good ext q ∧ LongRows ext q ∧ Pen ext q
    ∧ (∀ t < 2 * q.ns, q.mask (2 * (q.nb + q.ng) + t) = 0)
    ∧ (∃ s, (update ext false q soft0 mem0).2 = some s ∧ LdpSol s.2.2 (fun _ => 0) [])
    ∧ (call ext false q soft0 mem0 (fun _ => (fun _ => 0, [])) out0).2 = some r
    ∧ Feasible q w ∧ obj (solved ext q) w < obj (solved ext q) r.v := by
  let q : DQp ℚ := { sbox 0 (-1) 1 1 0 with mask := fun i => if i < 2 then 1 else 0 }
  refine ⟨q, (call ext false q soft0 mem0 (fun _ => (fun _ => 0, [])) out0).2.get (by decide +kernel), vec [0, 0, 0],
    ⟨(sbox_wf 0 (-1) 1 1 0).idxb, (sbox_wf 0 (-1) 1 1 0).rev, (sbox_wf 0 (-1) 1 1 0).once, (sbox_wf 0 (-1) 1 1 0).used⟩,
    ⟨(sbox_good 0 (-1) 1 1 0).chol, ex_good.rsqrt, ex_good.eps⟩, by decide +kernel, by decide +kernel, by decide +kernel,
    ⟨_, (Option.some_get (by decide +kernel)).symm, ?_⟩, (Option.some_get _).symm,
    DenseQp.feasible_dec _ _ (by decide +kernel), by decide +kernel⟩
  exact ⟨by decide +kernel, by decide +kernel, by decide +kernel, by decide +kernel, by decide +kernel, by decide +kernel,
    by decide +kernel⟩

/-- A soft constraint with an empty row: the slack is right but its multiplier is not (no complementarity). -/
theorem C75_empty_soft_false : ∃ (q : DQp ℚ) (r : Out ℚ), WF q ∧ Good ext q ∧ Pen ext q
    ∧ (∃ s, (update ext false q soft0 mem0).2 = some s ∧ LdpSol s.2.2 (fun _ => 0) [])
    ∧ (call ext false q soft0 mem0 (fun _ => (fun _ => 0, [])) out0).2 = some r
    ∧ Feasible q r.v ∧ ¬ KktE (solved ext q) r.v r.lam r.pi := by
  let q : DQp ℚ := { sbox 0 1 2 0 1 with nb := 0, ng := 1 }
  refine ⟨q, (call ext false q soft0 mem0 (fun _ => (fun _ => 0, [])) out0).2.get (by decide +kernel),
    ⟨fun _ h => absurd h (Nat.not_lt_zero _), (sbox_wf 0 1 2 0 1).rev, (sbox_wf 0 1 2 0 1).once, (sbox_wf 0 1 2 0 1).used⟩,
    ⟨(sbox_good 0 1 2 0 1).chol, ex_good.rsqrt, ex_good.eps⟩, by decide +kernel,
    ⟨_, (Option.some_get (by decide +kernel)).symm, ?_⟩, (Option.some_get _).symm,
    DenseQp.feasible_dec _ _ (by decide +kernel), fun h => ?_⟩
  · exact ldpSol_nil _ _ (by decide +kernel) (by decide +kernel) fun _ _ => rfl
  · exact absurd (h.compS 0 (by decide)) (by decide +kernel)

/-- Two constraints with the same slack: only the last one is treated as soft, so a feasible QP (`1 - sl ≤ x ≤ 0 + su`
and the same for `2 x`) is reported infeasible. -/
theorem C75_shared_slack_false : ∃ (q : DQp ℚ) (v : Nat → ℚ), (∀ i < q.nb + q.ng, q.idxsRev i = 0) ∧ Good ext q
    ∧ LongRows ext q ∧ Pen ext q ∧ Feasible q v ∧ (update ext false q soft0 mem0).2.isNone := by
  refine ⟨{ sbox 0 1 0 0 1 with ng := 1, Ct := fun _ _ => 1, d := vec [1, 1, 0, 0, 0, 0] }, vec [0, 1, 0], by decide,
    ⟨(sbox_good 0 1 2 0 1).chol, ex_good.rsqrt, ex_good.eps⟩, by decide +kernel, by decide +kernel,
    DenseQp.feasible_dec _ _ (by decide +kernel), by decide +kernel⟩

/-- Hot start with another Hessian: the old factorisation is used and the result is not the minimum. -/
theorem C75_hot_stale_false : ∃ (q0 q : DQp ℚ) (r : Out ℚ), WF q ∧ Good ext q ∧ LongRows ext q ∧ Good ext q0 ∧ LongRows ext q0
    ∧ (∃ s, (update ext true q soft0 (update ext false q0 soft0 mem0).1).2 = some s ∧ LdpSol s.2.2 (fun _ => 0) [])
    ∧ (call ext true q soft0 (update ext false q0 soft0 mem0).1 (fun _ => (fun _ => 0, [])) out0).2 = some r
    ∧ ¬ KktE (solved ext q) r.v r.lam r.pi := by
  refine ⟨box 1 0 (-9) 9, box 4 (-4) (-9) 9,
    (call ext true (box 4 (-4) (-9) 9) soft0 (update ext false (box 1 0 (-9) 9) soft0 mem0).1 (fun _ => (fun _ => 0, [])) out0).2.get
      (by decide +kernel), box_wf _ _ _ _, box_good _ _ _ _ (by decide +kernel), by decide +kernel,
    box_good _ _ _ _ (by decide +kernel), by decide +kernel,
    ⟨_, (Option.some_get (by decide +kernel)).symm, ?_⟩, (Option.some_get _).symm, fun h => ?_⟩
  · exact ⟨by decide +kernel, by decide +kernel, by decide +kernel, by decide +kernel, by decide +kernel, by decide +kernel,
      by decide +kernel⟩
  · exact absurd (h.stat 0 (by decide)) (by decide +kernel)

/-- A call that rebuilds the matrices and fails on its bounds (crossing) leaves the constraint matrix unscaled next to the
old scaling: the next hot-started call, with the same matrices and admissible bounds, returns a point outside them. -/
theorem C75_failed_update_false : ∃ (q0 q1 q : DQp ℚ) (m1 m2 : Mem ℚ) (r : Out ℚ), WF q ∧ Good ext q ∧ LongRows ext q
    ∧ SameMat q q0 ∧ SameMat q q1
    ∧ m1 = (update ext false q0 soft0 mem0).1 ∧ (update ext false q0 soft0 mem0).2.isSome
    ∧ m2 = (update ext false q1 soft0 m1).1 ∧ (update ext false q1 soft0 m1).2.isNone
    ∧ (∃ s, (update ext true q soft0 m2).2 = some s ∧ LdpSol s.2.2 (fun _ => 0) [])
    ∧ (call ext true q soft0 m2 (fun _ => (fun _ => 0, [])) out0).2 = some r ∧ ¬ Feasible q r.v := by
  refine ⟨box 4 (-8) (-9) 1, box 4 (-8) 3 1, box 4 (-8) (-9) 1, _, _,
    (call ext true (box 4 (-8) (-9) 1) soft0 (update ext false (box 4 (-8) 3 1) soft0
      (update ext false (box 4 (-8) (-9) 1) soft0 mem0).1).1 (fun _ => (fun _ => 0, [])) out0).2.get (by decide +kernel),
    box_wf _ _ _ _, box_good _ _ _ _ (by decide +kernel), by decide +kernel,
    ⟨rfl, rfl, rfl, rfl, rfl, rfl, rfl, rfl, rfl, rfl⟩, ⟨rfl, rfl, rfl, rfl, rfl, rfl, rfl, rfl, rfl, rfl⟩,
    rfl, by decide +kernel, rfl, by decide +kernel,
    ⟨_, (Option.some_get (by decide +kernel)).symm, ?_⟩, (Option.some_get _).symm, fun h => ?_⟩
  · exact ⟨by decide +kernel, by decide +kernel, by decide +kernel, by decide +kernel, by decide +kernel, by decide +kernel,
      by decide +kernel⟩
  · exact absurd (h.upper 0 (by decide) (by decide +kernel)) (by decide +kernel)

end Acados.Daqp
