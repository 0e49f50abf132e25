import Verif.Spec.Rti
import Mathlib.Tactic.Linarith
import Mathlib.Tactic.Ring
import Mathlib.Tactic.NormNum
/-!
# Lemmas about the real-time iteration model
-/
namespace Acados.Rti
variable {P B Z M V C X O : Type*}

theorem run_append (E : Env P B Z M V C X O) (o : Opts) (h1 h2 : List (Op P B)) (s : St P B Z M V C X O) :
    run E o (h1 ++ h2) s = (run E o h1 s).bind (run E o h2) := by
  induction h1 generalizing s with
  | nil => rfl
  | cons a l ih =>
    simp only [List.cons_append, run]
    cases step E o s a with
    | none => rfl
    | some t => exact ih t

/-- the offsets one residual log writes -/
def resW (o : Opts) (sn sm i : Int) : List Int :=
  if i < sm then
    let off := sn * i + 2 + (if o.extRes then 4 else 0)
    [off, off + 1, off + 2, off + 3]
  else []

theorem storeRes_writes (o : Opts) (s : St P B Z M V C X O) :
    (storeRes o s).writes = s.writes ++ resW o s.statN s.statM s.iter := by
  unfold storeRes resW
  split <;> simp

/-- everything a step of the QP data leaves alone -/
structure Keep (s t : St P B Z M V C X O) : Prop where
  iter : t.iter = s.iter
  statN : t.statN = s.statN
  statM : t.statM = s.statM

theorem storeRes_keep (o : Opts) (s : St P B Z M V C X O) : Keep s (storeRes o s) := by
  unfold storeRes
  split <;> exact ⟨rfl, rfl, rfl⟩

/-- the offsets written by one feedback step -/
def feedW (o : Opts) (ok : Bool) (sn sm i : Int) : List Int :=
  (if o.logRes then resW o sn sm i else []) ++
  (if o.extRes then [sn + 2, sn + 3, sn + 4, sn + 5] else []) ++
  [sn * (i + 1), sn * (i + 1) + 1] ++
  (if ok && (o.logRes && !o.logOnly) then resW o sn sm (i + 1) else [])

theorem feedbackQp_frame (E : Env P B Z M V C X O) (o : Opts) (s : St P B Z M V C X O) :
    (feedbackQp E o s).2.iter = s.iter + 1 ∧ (feedbackQp E o s).2.statN = s.statN ∧
    (feedbackQp E o s).2.statM = s.statM ∧
    (feedbackQp E o s).2.writes = s.writes ++ (if o.logRes then resW o s.statN s.statM s.iter else []) ∧
    (feedbackQp E o s).2.status = s.status ∧ (feedbackQp E o s).2.globOk = s.globOk ∧
    (feedbackQp E o s).2.qpSt = s.qpSt ++ [(feedbackQp E o s).1] ∧
    (feedbackQp E o s).2.z = s.z ∧ (feedbackQp E o s).2.tmp = s.tmp ∧ (feedbackQp E o s).2.b = s.b ∧
    (feedbackQp E o s).2.p = s.p ∧ (feedbackQp E o s).2.first = s.first := by
  unfold feedbackQp qpSolve warmStart regStep vecStep storeRes resW
  cases o.phase <;> cases o.logRes <;> cases s.first <;> cases o.warmFirst <;> cases o.fromNlp <;>
    simp <;> split <;> simp

theorem feedbackStat_frame (o : Opts) (s : St P B Z M V C X O) :
    (feedbackStat o s).iter = s.iter ∧ (feedbackStat o s).statN = s.statN ∧
    (feedbackStat o s).statM = s.statM ∧
    (feedbackStat o s).writes = s.writes ++
      (if o.extRes then [s.statN + 2, s.statN + 3, s.statN + 4, s.statN + 5] else []) ++
      [s.statN * s.iter, s.statN * s.iter + 1] ∧
    (feedbackStat o s).globOk = s.globOk ∧ (feedbackStat o s).qpSt = s.qpSt ∧
    (feedbackStat o s).qps = s.qps ∧ (feedbackStat o s).c = s.c ∧ (feedbackStat o s).tmp = s.tmp ∧
    (feedbackStat o s).b = s.b ∧ (feedbackStat o s).p = s.p ∧ (feedbackStat o s).m = s.m ∧
    (feedbackStat o s).z = s.z ∧ (feedbackStat o s).v = s.v ∧ (feedbackStat o s).o = s.o ∧
    (feedbackStat o s).x = s.x ∧ (feedbackStat o s).first = s.first := by
  unfold feedbackStat saveStat
  cases hf : s.first <;> cases o.extRes <;> simp [hf]

theorem feedback_frame (E : Env P B Z M V C X O) (o : Opts) (s : St P B Z M V C X O) :
    (feedback E o s).iter = s.iter + 1 ∧ (feedback E o s).statN = s.statN ∧
    (feedback E o s).statM = s.statM ∧
    (feedback E o s).writes =
      s.writes ++ feedW o (qpOk (feedbackQp E o s).1) s.statN s.statM s.iter := by
  obtain ⟨q1, q2, q3, q4, -⟩ := feedbackQp_frame E o s
  obtain ⟨t1, t2, t3, t4, -⟩ := feedbackStat_frame o (feedbackQp E o s).2
  unfold feedback feedW
  simp only
  generalize feedbackStat o (feedbackQp E o s).2 = w at *
  cases hok : qpOk (feedbackQp E o s).1
  · simp [t1, t2, t3, t4, q1, q2, q3, q4]
  · cases hl : (o.logRes && !o.logOnly)
    · simp [globStep, t1, t2, t3, t4, q1, q2, q3, q4]
    · simp only [Bool.not_true, Bool.false_eq_true, ↓reduceIte, Bool.and_self]
      have hk := storeRes_keep o ({ (globStep E w).2 with
        status := Status.success, first := false
        m := E.resPrep (globStep E w).2.p (globStep E w).2.z (globStep E w).2.m } : St P B Z M V C X O)
      refine ⟨hk.iter.trans ?_, hk.statN.trans ?_, hk.statM.trans ?_, ?_⟩
      · simp [globStep, t1, q1]
      · simp [globStep, t2, q2]
      · simp [globStep, t3, q3]
      · rw [storeRes_writes]
        simp [globStep, t1, t2, t3, t4, q1, q2, q3, q4]

theorem feedback_status (E : Env P B Z M V C X O) (o : Opts) (s : St P B Z M V C X O) :
    (feedback E o s).status = if qpOk (feedbackQp E o s).1 then Status.success else .qpFailure := by
  unfold feedback
  cases hok : qpOk (feedbackQp E o s).1
  · simp [hok]
  · cases hl : (o.logRes && !o.logOnly)
    · simp [hok]
    · simp only [hok, Bool.not_true, Bool.false_eq_true, ↓reduceIte]
      unfold storeRes
      split <;> rfl

/-- fields a feedback step leaves alone or changes in a known way -/
theorem feedback_misc (E : Env P B Z M V C X O) (o : Opts) (s : St P B Z M V C X O) :
    (feedback E o s).p = s.p ∧ (feedback E o s).b = s.b ∧
    (feedback E o s).c = (feedbackQp E o s).2.c ∧
    (feedback E o s).qps = (feedbackQp E o s).2.qps ∧
    (feedback E o s).qpSt = s.qpSt ++ [(feedbackQp E o s).1] ∧
    (feedback E o s).first = (s.first && !qpOk (feedbackQp E o s).1) := by
  obtain ⟨q1, q2, q3, q4, q5, q6, q7, q8, q9, q10, q11, q12⟩ := feedbackQp_frame E o s
  obtain ⟨t1, t2, t3, t4, t5, t6, t7, t8, t9, t10, t11, t12, t13, t14, t15, t16, t17⟩ :=
    feedbackStat_frame o (feedbackQp E o s).2
  unfold feedback
  simp only
  generalize feedbackStat o (feedbackQp E o s).2 = w at *
  cases hok : qpOk (feedbackQp E o s).1
  · simp [*]
  · cases hl : (o.logRes && !o.logOnly)
    · simp [globStep, *]
    · simp only [Bool.not_true, Bool.false_eq_true, ↓reduceIte]
      unfold storeRes
      split <;> simp [globStep, *]

theorem feedbackQp_pre (E : Env P B Z M V C X O) (o : Opts) (s : St P B Z M V C X O)
    (ho : o.phase = .feed) :
    (feedbackQp E o s).2.c = s.c ∧
    (feedbackQp E o s).2.qps = s.qps ++ [(s.c, (E.regRhs s.m (E.vec s.b s.z s.m)).1,
      (E.regRhs s.m (E.vec s.b s.z s.m)).2)] := by
  unfold feedbackQp qpSolve warmStart regStep vecStep storeRes
  rw [ho]
  cases o.logRes <;> cases s.first <;> cases o.warmFirst <;> cases o.fromNlp <;>
    simp <;> split <;> simp

theorem storeRes_eq (o : Opts) (s : St P B Z M V C X O) :
    storeRes o s = { s with writes := s.writes ++ resW o s.statN s.statM s.iter } := by
  unfold storeRes resW
  split <;> simp

theorem warmStart_eq (E : Env P B Z M V C X O) (o : Opts) (s : St P B Z M V C X O)
    (hw : (s.first && (o.warmFirst && o.fromNlp)) = false) :
    warmStart E o s = { s with ws := if s.first && !o.warmFirst then 0 else s.ws } := by
  obtain ⟨p, b0, z, tmp, m, v, c, x, q, ini, ws, it, st, fi, sn, sm, wr, qs, qt, gl⟩ := s
  obtain ⟨ph, lv, ai, lr, lo, er, wf, fn, qw⟩ := o
  cases fi <;> cases wf <;> cases fn <;> simp_all [warmStart]

/-- the precondensed solve is the full solve when the condensed matrices are those of the QP -/
theorem qpSolve_split (E : Env P B Z M V C X O) (w : St P B Z M V C X O) (c : C)
    (hi : w.initNext = false) (hc : w.c = E.cond w.m) :
    qpSolve E true w = qpSolve E false { w with c := c } := by
  simp [qpSolve, hi, hc]

/-! ## statistics -/

/-- shape of the statistics array for the given options -/
def Shape (o : Opts) (s : St P B Z M V C X O) : Prop :=
  s.statN = 2 + (if o.logRes then 4 else 0) + (if o.extRes then 4 else 0) ∧ s.statM = 2 + o.asIter

theorem resW_ok (o : Opts) (sn sm i : Int) (hl : o.logRes = true)
    (hn : sn = 2 + (if o.logRes then 4 else 0) + (if o.extRes then 4 else 0)) (hi : 0 ≤ i) :
    ∀ w ∈ resW o sn sm i, 0 ≤ w ∧ w < sn * sm := by
  intro w hw
  unfold resW at hw
  rw [hl] at hn
  cases he : o.extRes <;> rw [he] at hn hw <;> simp at hn <;> subst hn <;> split at hw <;>
    simp at hw <;> omega

theorem feedW_ok (o : Opts) (ok : Bool) (sn sm i : Int) (hs : 2 ≤ sm)
    (hn : sn = 2 + (if o.logRes then 4 else 0) + (if o.extRes then 4 else 0)) (hi : 0 ≤ i) :
    (∀ w ∈ feedW o ok sn sm i, 0 ≤ w ∧ w < sn * sm) ↔ i + 1 < sm := by
  have hpos : 2 ≤ sn := by rw [hn]; split <;> split <;> norm_num
  constructor
  · intro h
    have := (h (sn * (i + 1)) (by simp [feedW])).2
    exact lt_of_mul_lt_mul_left this (by omega)
  · intro h w hw
    unfold feedW at hw
    simp only [List.mem_append] at hw
    have row : ∀ r, 0 ≤ r → r < 2 → 0 ≤ sn * (i + 1) + r ∧ sn * (i + 1) + r < sn * sm := by
      intro r h0 h2
      constructor
      · nlinarith
      · nlinarith
    rcases hw with ((hw | hw) | hw) | hw
    · cases hl : o.logRes
      · simp [hl] at hw
      · rw [if_pos hl] at hw; exact resW_ok o sn sm i hl hn hi w hw
    · cases he : o.extRes
      · simp [he] at hw
      · have h6 : 6 ≤ sn := by rw [hn, he]; split <;> norm_num
        rw [he] at hw
        simp at hw
        constructor
        · omega
        · have : w ≤ sn + 5 := by omega
          nlinarith
    · simp at hw
      rcases hw with rfl | rfl
      · simpa using row 0 (by norm_num) (by norm_num)
      · exact row 1 (by norm_num) (by norm_num)
    · cases hl : (ok && (o.logRes && !o.logOnly))
      · simp [hl] at hw
      · rw [if_pos hl] at hw
        have hl' : o.logRes = true := by
          simp only [Bool.and_eq_true] at hl; exact hl.2.1
        exact resW_ok o sn sm (i + 1) hl' hn (by omega) w hw

theorem prepare_frame (E : Env P B Z M V C X O) (o : Opts) (s : St P B Z M V C X O) :
    (prepare E o s).iter = 0 ∧ (prepare E o s).statN = s.statN ∧ (prepare E o s).statM = s.statM ∧
    (prepare E o s).writes = s.writes ∧ (prepare E o s).status = s.status ∧
    (prepare E o s).first = s.first ∧ (prepare E o s).z = s.z ∧ (prepare E o s).p = s.p ∧
    (prepare E o s).b = s.b ∧ (prepare E o s).qpSt = s.qpSt ∧ (prepare E o s).qps = s.qps := by
  unfold prepare linStep startPrep lhsStep
  split <;> simp

theorem inBounds_append (s t : St P B Z M V C X O) (l : List Int) (hn : t.statN = s.statN)
    (hm : t.statM = s.statM) (hw : t.writes = s.writes ++ l) :
    InBounds t ↔ InBounds s ∧ ∀ w ∈ l, 0 ≤ w ∧ w < s.statN * s.statM := by
  unfold InBounds
  rw [hn, hm, hw]
  constructor
  · intro h
    exact ⟨fun w hw => h w (List.mem_append_left _ hw), fun w hw => h w (List.mem_append_right _ hw)⟩
  · rintro ⟨h1, h2⟩ w hw
    rcases List.mem_append.mp hw with h | h
    · exact h1 w h
    · exact h2 w h

/-- statistics after a history with standard preparations -/
theorem run_stat (E : Env P B Z M V C X O) (o : Opts) (hl : o.level = .standard) (hi : 0 ≤ o.asIter)
    (h : List (Op P B)) : ∀ (s s' : St P B Z M V C X O) (n : Nat), Shape o s → s.iter = n →
    run E o h s = some s' →
    (InBounds s' ↔ InBounds s ∧ ∀ k ∈ feedCounts n h, (k : Int) ≤ o.asIter + 1) := by
  have hsh : ∀ ph, ({ o with phase := ph } : Opts).level = .standard := fun _ => hl
  induction h with
  | nil =>
    intro s s' n _ _ hr
    simp only [run, Option.some.injEq] at hr
    subst hr
    simp [feedCounts]
  | cons a l ih =>
    intro s s' n hS hn hr
    have hsm : 2 ≤ s.statM := by rw [hS.2]; omega
    cases a with
    | setBounds b =>
      simp only [run, step, Option.bind_some] at hr
      exact ih { s with b := b } s' n hS hn hr
    | setParam p =>
      simp only [run, step, Option.bind_some] at hr
      exact ih { s with p := p } s' n hS hn hr
    | run ph =>
      cases ph with
      | prep =>
        simp only [run, step, call, hl, if_true, Option.bind_some] at hr
        obtain ⟨p1, p2, p3, p4, -⟩ := prepare_frame E { o with phase := .prep, level := .standard } s
        rw [ih _ s' 0 (by exact ⟨p2.trans hS.1, p3.trans hS.2⟩) (by simpa using p1) hr]
        rw [inBounds_append s _ [] p2 p3 (by rw [p4]; simp)]
        simp only [feedCounts, List.mem_cons, forall_eq_or_imp, List.not_mem_nil, false_imp_iff,
          implies_true, and_true]
        constructor
        · rintro ⟨h1, h2⟩; exact ⟨h1, by simp; omega, h2⟩
        · rintro ⟨h1, -, h2⟩; exact ⟨h1, h2⟩
      | feed =>
        simp only [run, step, call, Option.bind_some] at hr
        obtain ⟨p1, p2, p3, p4⟩ := feedback_frame E { o with phase := .feed } s
        rw [ih _ s' (n + 1) (by exact ⟨p2.trans hS.1, p3.trans hS.2⟩) (by rw [p1, hn]; simp) hr]
        rw [inBounds_append s _ _ p2 p3 p4, feedW_ok { o with phase := .feed } _ _ _ _ hsm hS.1 (by omega)]
        simp only [feedCounts, List.mem_cons, forall_eq_or_imp, hS.2, hn]
        constructor
        · rintro ⟨⟨h1, h3⟩, h2⟩; exact ⟨h1, by push_cast; omega, h2⟩
        · rintro ⟨h1, h3, h2⟩; exact ⟨⟨h1, by push_cast at h3; omega⟩, h2⟩
      | both =>
        simp only [run, step, call, hl, ne_eq, not_true_eq_false, if_false, Option.bind_some] at hr
        obtain ⟨q1, q2, q3, q4, -⟩ := prepare_frame E { o with phase := .both, level := .standard } s
        generalize prepare E { o with phase := .both, level := .standard } s = t at *
        obtain ⟨p1, p2, p3, p4⟩ := feedback_frame E { o with phase := .both, level := .standard } t
        rw [ih _ s' 1 (by exact ⟨(p2.trans q2).trans hS.1, (p3.trans q3).trans hS.2⟩)
          (by rw [p1, q1]; simp) hr]
        rw [inBounds_append t _ _ p2 p3 p4, inBounds_append s _ [] q2 q3 (by rw [q4]; simp),
          feedW_ok { o with phase := .both, level := .standard } _ _ t.statM _ (by rw [q3]; exact hsm) (q2.trans hS.1) (by omega)]
        simp only [feedCounts, List.mem_cons, forall_eq_or_imp, q3, hS.2, q1, List.not_mem_nil,
          false_imp_iff, implies_true, and_true]
        constructor
        · rintro ⟨⟨h1, h3⟩, h2⟩; exact ⟨h1, by push_cast; omega, h2⟩
        · rintro ⟨h1, h3, h2⟩; exact ⟨⟨h1, by omega⟩, h2⟩

/-- array of the right shape, nothing written outside -/
def Good (o : Opts) (s : St P B Z M V C X O) : Prop := Shape o s ∧ InBounds s

theorem good_of (o : Opts) (s t : St P B Z M V C X O) (h : Good o s) (hn : t.statN = s.statN)
    (hm : t.statM = s.statM) (hw : t.writes = s.writes) : Good o t :=
  ⟨⟨hn.trans h.1.1, hm.trans h.1.2⟩, (inBounds_append s t [] hn hm (by rw [hw]; simp)).mpr ⟨h.2, by simp⟩⟩

theorem storeRes_good (o : Opts) (s : St P B Z M V C X O) (hl : o.logRes = true) (hi : 0 ≤ s.iter)
    (h : Good o s) : Good o (storeRes o s) := by
  have k := storeRes_keep o s
  refine ⟨⟨k.statN.trans h.1.1, k.statM.trans h.1.2⟩, ?_⟩
  rw [inBounds_append s _ _ k.statN k.statM (storeRes_writes o s)]
  exact ⟨h.2, resW_ok o _ _ _ hl h.1.1 hi⟩

theorem saveStat_good (o : Opts) (s : St P B Z M V C X O) (hi : 0 ≤ s.iter) (hm : s.iter < s.statM)
    (h : Good o s) : Good o (saveStat s) := by
  refine ⟨h.1, ?_⟩
  rw [inBounds_append s (saveStat s) _ rfl rfl rfl]
  refine ⟨h.2, ?_⟩
  have hpos : 2 ≤ s.statN := by rw [h.1.1]; split <;> split <;> norm_num
  intro w hw
  simp at hw
  rcases hw with rfl | rfl <;> constructor <;> nlinarith

theorem qpSolve_frame (E : Env P B Z M V C X O) (pre : Bool) (s : St P B Z M V C X O) :
    (qpSolve E pre s).2.iter = s.iter ∧ (qpSolve E pre s).2.statN = s.statN ∧
    (qpSolve E pre s).2.statM = s.statM ∧ (qpSolve E pre s).2.writes = s.writes ∧
    (qpSolve E pre s).2.status = s.status ∧ (qpSolve E pre s).2.z = s.z ∧
    (qpSolve E pre s).2.tmp = s.tmp ∧ (qpSolve E pre s).2.first = s.first ∧
    (qpSolve E pre s).2.qpSt = s.qpSt ++ [(qpSolve E pre s).1] ∧
    (qpSolve E true s).2.c = s.c := by
  simp [qpSolve]

theorem asLoop_good (E : Env P B Z M V C X O) (o : Opts) (pre : Bool)
    (upd post : St P B Z M V C X O → St P B Z M V C X O)
    (hU : ∀ s, Good o s → 0 ≤ s.iter → Good o (upd s) ∧ (upd s).iter = s.iter)
    (hP : ∀ s, Good o s → Good o (post s) ∧ (post s).iter = s.iter) :
    ∀ (k : Nat) (s : St P B Z M V C X O), Good o s → 0 ≤ s.iter → s.iter + k ≤ o.asIter →
      Good o (asLoop E pre upd post k s).2 ∧ 0 ≤ (asLoop E pre upd post k s).2.iter ∧
      (asLoop E pre upd post k s).2.iter ≤ o.asIter := by
  intro k
  induction k with
  | zero => intro s hg h0 hk; exact ⟨hg, h0, by simpa [asLoop] using hk⟩
  | succ k ih =>
    intro s hg h0 hk
    push_cast at hk
    obtain ⟨u1, u2⟩ := hU s hg h0
    obtain ⟨q1, q2, q3, q4, -⟩ := qpSolve_frame E pre (upd s)
    have g1 : Good o (qpSolve E pre (upd s)).2 := good_of o _ _ u1 q2 q3 q4
    have i1 : (qpSolve E pre (upd s)).2.iter = s.iter := q1.trans u2
    have g2 := saveStat_good o _ (by rw [i1]; exact h0) (by rw [i1, g1.1.2]; omega) g1
    obtain ⟨g3, i3⟩ := hP _ g2
    have i4 : (post (saveStat (qpSolve E pre (upd s)).2)).iter = s.iter := i3.trans i1
    simp only [asLoop]
    generalize post (saveStat (qpSolve E pre (upd s)).2) = w at *
    split
    · exact ⟨good_of o w _ g3 rfl rfl rfl, by simpa [i4] using h0, by simp only [i4]; omega⟩
    · split
      · exact ⟨good_of o w _ g3 rfl rfl rfl, by simpa [globStep, i4] using h0,
          by simp only [globStep, i4]; omega⟩
      · apply ih
        · exact good_of o w _ g3 rfl rfl rfl
        · simp only [globStep, i4]; omega
        · simp only [globStep, i4]; omega

theorem updB_good (E : Env P B Z M V C X O) (o : Opts) (s : St P B Z M V C X O) (h : Good o s)
    (hi : 0 ≤ s.iter) : Good o (updB E o s) ∧ (updB E o s).iter = s.iter := by
  unfold updB regStep
  simp only
  cases hl : (o.logRes && !o.logOnly)
  · exact ⟨good_of o s _ h rfl rfl rfl, rfl⟩
  · simp only [Bool.and_eq_true] at hl
    simp only [if_true]
    generalize hs : ({ s with
      m := E.resPrep s.p s.z (E.zero s.p s.b s.z s.m s.v s.o).1
      v := (E.zero s.p s.b s.z s.m s.v s.o).2 } : St P B Z M V C X O) = t
    have ht : Good o t := by subst hs; exact good_of o s _ h rfl rfl rfl
    have hti : t.iter = s.iter := by subst hs; rfl
    have := storeRes_good o t hl.1 (by omega) ht
    exact ⟨good_of o _ _ this rfl rfl rfl, ((storeRes_keep o t).iter).trans hti⟩

theorem updC_good (E : Env P B Z M V C X O) (o : Opts) (s : St P B Z M V C X O) (h : Good o s)
    (hi : 0 ≤ s.iter) : Good o (updC E o s) ∧ (updC E o s).iter = s.iter := by
  unfold updC regStep
  simp only
  cases hl : (o.logRes && !o.logOnly)
  · exact ⟨good_of o s _ h rfl rfl rfl, rfl⟩
  · simp only [Bool.and_eq_true] at hl
    simp only [if_true]
    generalize hs : ({ s with
      m := E.resPrepC s.p s.z (E.levC s.p s.b s.z s.m s.v).1
      v := (E.levC s.p s.b s.z s.m s.v).2 } : St P B Z M V C X O) = t
    have ht : Good o t := by subst hs; exact good_of o s _ h rfl rfl rfl
    have hti : t.iter = s.iter := by subst hs; rfl
    have := storeRes_good o t hl.1 (by omega) ht
    exact ⟨good_of o _ _ this rfl rfl rfl, ((storeRes_keep o t).iter).trans hti⟩

theorem updD_good (E : Env P B Z M V C X O) (o : Opts) (s : St P B Z M V C X O) (h : Good o s)
    (hi : 0 ≤ s.iter) : Good o (updD E o s) ∧ (updD E o s).iter = s.iter := by
  unfold updD regStep
  simp only
  have ht : Good o (vecStep E (linStep E s)) := good_of o s _ h rfl rfl rfl
  cases hl : o.logRes
  · exact ⟨good_of o s _ h rfl rfl rfl, rfl⟩
  · simp only [if_true]
    have := storeRes_good o _ hl (by simpa [vecStep, linStep] using hi) ht
    exact ⟨good_of o _ _ this rfl rfl rfl, (storeRes_keep o _).iter⟩

theorem levelA_good (E : Env P B Z M V C X O) (o : Opts) (s : St P B Z M V C X O) (h : Good o s)
    (hi : s.iter = 0) (hm : 0 ≤ o.asIter) :
    Good o (levelA E o s).2 ∧ (levelA E o s).2.iter = 1 := by
  unfold levelA
  simp only
  generalize hs : (if (o.logRes && !o.logOnly) = true then
      ({ s with z := s.tmp, m := E.resPrep s.p s.tmp s.m } : St P B Z M V C X O)
      else { s with z := s.tmp }) = t
  have ht : Good o t := by subst hs; split <;> exact good_of o s _ h rfl rfl rfl
  have hti : t.iter = 0 := by subst hs; split <;> exact hi
  generalize ht4 : (if o.logRes = true then storeRes o (vecStep E t) else vecStep E t) = w
  have hw : Good o w ∧ w.iter = 0 := by
    subst ht4
    cases hl : o.logRes
    · exact ⟨good_of o t _ ht rfl rfl rfl, hti⟩
    · exact ⟨storeRes_good o _ hl (by simp [vecStep, hti]) (good_of o t _ ht rfl rfl rfl),
        ((storeRes_keep o _).iter).trans hti⟩
  generalize hy : regStep E.regRhs ({ w with iter := w.iter + 1 } : St P B Z M V C X O) = y
  have hyg : Good o y := by subst hy; exact good_of o w _ hw.1 rfl rfl rfl
  have hyi : y.iter = 1 := by subst hy; simp [regStep, hw.2]
  obtain ⟨q1, q2, q3, q4, -⟩ := qpSolve_frame E true y
  have g1 : Good o (qpSolve E true y).2 := good_of o _ _ hyg q2 q3 q4
  have g2 := saveStat_good o _ (by rw [q1, hyi]; norm_num) (by rw [q1, hyi, g1.1.2]; omega) g1
  exact ⟨good_of o _ _ g2 rfl rfl rfl, by simp [globStep, saveStat, q1, hyi]⟩

theorem inner_good (E : Env P B Z M V C X O) (o : Opts) (s : St P B Z M V C X O) (h : Good o s)
    (hi : s.iter = 0) (hm : 0 ≤ o.asIter) (hA : o.level = .A → 1 ≤ o.asIter) :
    Good o (inner E o s).2 ∧ 0 ≤ (inner E o s).2.iter ∧ (inner E o s).2.iter ≤ o.asIter := by
  have hz : Good o s ∧ 0 ≤ s.iter ∧ s.iter ≤ o.asIter := ⟨h, by omega, by omega⟩
  have hk : s.iter + ((o.asIter - s.iter).toNat : Int) ≤ o.asIter := by omega
  unfold inner
  simp only
  cases hl : o.level with
  | A =>
    simp only
    split
    · exact hz
    · obtain ⟨a, b⟩ := levelA_good E o s h hi hm
      have := hA hl
      exact ⟨a, by omega, by omega⟩
  | B =>
    simp only
    split
    · exact hz
    · exact asLoop_good E o true _ (postB E) (fun s => updB_good E o s)
        (fun s hs => ⟨good_of o s _ hs rfl rfl rfl, rfl⟩) _ s h (by omega) hk
  | C =>
    simp only
    split
    · exact hz
    · exact asLoop_good E o true _ _ (fun s => updC_good E o s) (fun s hs => ⟨hs, rfl⟩) _ s h (by omega) hk
  | D => exact asLoop_good E o false _ _ (fun s => updD_good E o s) (fun s hs => ⟨hs, rfl⟩) _ s h (by omega) hk
  | standard => exact hz

theorem prepareAdvanced_good (E : Env P B Z M V C X O) (o : Opts) (s s' : St P B Z M V C X O)
    (h : Good o s) (hm : 0 ≤ o.asIter) (hA : o.level = .A → 1 ≤ o.asIter)
    (hr : prepareAdvanced E o s = some s') : Good o s' ∧ 0 ≤ s'.iter ∧ s'.iter ≤ o.asIter := by
  unfold prepareAdvanced at hr
  simp only at hr
  split at hr
  · exact absurd hr (by simp)
  · generalize hs2 : (if (startPrep E s).first = true then startPrep E s else
      { startPrep E s with
        b := (E.adv (startPrep E s).p (startPrep E s).z (startPrep E s).m (startPrep E s).b).1
        m := (E.adv (startPrep E s).p (startPrep E s).z (startPrep E s).m (startPrep E s).b).2 }) = t at hr
    have ht : Good o t := by subst hs2; split <;> exact good_of o s _ h rfl rfl rfl
    have hti : t.iter = 0 := by subst hs2; split <;> rfl
    have hin := inner_good E o t ht hti hm hA
    generalize inner E o t = r at *
    split at hr
    · simp only [Option.some.injEq] at hr; subst hr; exact hin
    · simp only [Option.some.injEq] at hr
      have : Good o (lhsStep E (linStep E r.2)) ∧ (lhsStep E (linStep E r.2)).iter = r.2.iter :=
        ⟨good_of o _ _ hin.1 rfl rfl rfl, rfl⟩
      split at hr <;> subst hr
      · exact ⟨good_of o _ _ this.1 rfl rfl rfl, hin.2⟩
      · exact ⟨this.1, hin.2⟩

theorem feedback_good (E : Env P B Z M V C X O) (o : Opts) (s : St P B Z M V C X O) (h : Good o s)
    (hm : 0 ≤ o.asIter) (h0 : 0 ≤ s.iter) (h1 : s.iter ≤ o.asIter) : Good o (feedback E o s) := by
  obtain ⟨p1, p2, p3, p4⟩ := feedback_frame E o s
  refine ⟨⟨p2.trans h.1.1, p3.trans h.1.2⟩, ?_⟩
  rw [inBounds_append s _ _ p2 p3 p4, feedW_ok o _ _ _ _ (by rw [h.1.2]; omega) h.1.1 h0]
  exact ⟨h.2, by rw [h.1.2]; omega⟩

/-- statistics after a history with at most one feedback per preparation -/
theorem run_stat_adv (E : Env P B Z M V C X O) (o : Opts) (hi : 0 ≤ o.asIter)
    (hA : o.level = .A → 1 ≤ o.asIter) (h : List (Op P B)) :
    ∀ (s s' : St P B Z M V C X O) (n : Nat), Good o s → 0 ≤ s.iter → (n = 0 → s.iter ≤ o.asIter) →
    (∀ k ∈ feedCounts n h, k ≤ 1) → run E o h s = some s' → Good o s' := by
  induction h with
  | nil =>
    intro s s' n hg _ _ _ hr
    simp only [run, Option.some.injEq] at hr
    subst hr; exact hg
  | cons a l ih =>
    intro s s' n hg h0 hn hc hr
    cases a with
    | setBounds b =>
      simp only [run, step, Option.bind_some] at hr
      exact ih { s with b := b } s' n hg h0 hn hc hr
    | setParam p =>
      simp only [run, step, Option.bind_some] at hr
      exact ih { s with p := p } s' n hg h0 hn hc hr
    | run ph =>
      cases ph with
      | prep =>
        simp only [run, step, call] at hr
        simp only [feedCounts, List.mem_cons, forall_eq_or_imp] at hc
        split at hr
        · obtain ⟨p1, p2, p3, p4, -⟩ := prepare_frame E { o with phase := .prep } s
          simp only [Option.bind_some] at hr
          exact ih _ s' 0 (good_of o s _ hg p2 p3 p4) (by omega) (fun _ => by omega) hc.2 hr
        · cases hp : prepareAdvanced E { o with phase := .prep } s with
          | none => rw [hp] at hr; simp at hr
          | some t =>
            rw [hp] at hr
            simp only [Option.bind_some] at hr
            obtain ⟨g, i0, i1⟩ := prepareAdvanced_good E { o with phase := .prep } s t hg hi hA hp
            exact ih t s' 0 g i0 (fun _ => i1) hc.2 hr
      | feed =>
        simp only [run, step, call, Option.bind_some] at hr
        simp only [feedCounts, List.mem_cons, forall_eq_or_imp] at hc
        have hn0 : n = 0 := by omega
        have hg' := feedback_good E { o with phase := .feed } s hg hi h0 (hn hn0)
        obtain ⟨p1, -⟩ := feedback_frame E { o with phase := .feed } s
        exact ih _ s' (n + 1) hg' (by omega) (fun h => by omega) hc.2 hr
      | both =>
        simp only [run, step, call] at hr
        simp only [feedCounts, List.mem_cons, forall_eq_or_imp] at hc
        split at hr
        · simp at hr
        · simp only [Option.bind_some] at hr
          obtain ⟨q1, q2, q3, q4, -⟩ := prepare_frame E { o with phase := .both } s
          generalize prepare E { o with phase := .both } s = t at *
          have ht : Good o t := good_of o s _ hg q2 q3 q4
          have hg' := feedback_good E { o with phase := .both } t ht hi (by omega) (by rw [q1]; exact hi)
          obtain ⟨p1, -⟩ := feedback_frame E { o with phase := .both } t
          exact ih _ s' 1 hg' (by omega) (fun h => by omega) hc.2 hr

/-! ## statuses and condensed matrices of the advanced preparation -/

theorem asLoop_status (E : Env P B Z M V C X O) (pre : Bool)
    (upd post : St P B Z M V C X O → St P B Z M V C X O)
    (hU : ∀ s, (upd s).qpSt = s.qpSt ∧ (upd s).status = s.status ∧ (upd s).c = s.c)
    (hP : ∀ s, (post s).qpSt = s.qpSt ∧ (post s).status = s.status ∧ (post s).c = s.c) :
    ∀ (k : Nat) (s : St P B Z M V C X O), ∃ l : List Status,
      (asLoop E pre upd post k s).2.qpSt = s.qpSt ++ l ∧
      (asLoop E pre upd post k s).2.status = (if l.all qpOk then s.status else .qpFailure) ∧
      (l.all qpOk = false → (asLoop E pre upd post k s).1 = true) ∧
      (pre = true → (asLoop E pre upd post k s).2.c = s.c) := by
  intro k
  induction k with
  | zero => intro s; exact ⟨[], by simp [asLoop]⟩
  | succ k ih =>
    intro s
    obtain ⟨u1, u2, u3⟩ := hU s
    obtain ⟨-, -, -, -, q5, -, -, -, q9, -⟩ := qpSolve_frame E pre (upd s)
    obtain ⟨p1, p2, p3⟩ := hP (saveStat (qpSolve E pre (upd s)).2)
    have e1 : (post (saveStat (qpSolve E pre (upd s)).2)).qpSt = s.qpSt ++ [(qpSolve E pre (upd s)).1] := by
      rw [p1]; simp only [saveStat]; rw [q9, u1]
    have e2 : (post (saveStat (qpSolve E pre (upd s)).2)).status = s.status := by
      rw [p2]; simp only [saveStat]; rw [q5, u2]
    have e3 : pre = true → (post (saveStat (qpSolve E pre (upd s)).2)).c = s.c := by
      rintro rfl
      rw [p3, ← u3]; simp [saveStat, qpSolve]
    simp only [asLoop]
    generalize post (saveStat (qpSolve E pre (upd s)).2) = w at *
    generalize (qpSolve E pre (upd s)).1 = st at *
    cases hok : qpOk st
    · exact ⟨[st], by simp [e1], by simp [hok], by simp, by simpa using e3⟩
    · simp only [Bool.not_true, Bool.false_eq_true, if_false]
      cases hg : (globStep E w).1
      · exact ⟨[st], by simp [globStep, e1], by simp [globStep, e2, hok], by simp, by
          simpa [globStep] using e3⟩
      · simp only [Bool.not_true, Bool.false_eq_true, if_false]
        obtain ⟨l, h1, h2, h3, h4⟩ := ih { (globStep E w).2 with iter := (globStep E w).2.iter + 1 }
        refine ⟨st :: l, ?_, ?_, ?_, ?_⟩
        · rw [h1]; simp [globStep, e1]
        · rw [h2]; simp [globStep, e2, hok]
        · intro hl; apply h3; simpa [hok] using hl
        · intro hp; rw [h4 hp]; simpa [globStep] using e3 hp

theorem upd_frame (E : Env P B Z M V C X O) (o : Opts) (s : St P B Z M V C X O) :
    ((updB E o s).qpSt = s.qpSt ∧ (updB E o s).status = s.status ∧ (updB E o s).c = s.c) ∧
    ((updC E o s).qpSt = s.qpSt ∧ (updC E o s).status = s.status ∧ (updC E o s).c = s.c) ∧
    ((updD E o s).qpSt = s.qpSt ∧ (updD E o s).status = s.status ∧ (updD E o s).c = s.c) := by
  refine ⟨?_, ?_, ?_⟩
  · simp only [updB, regStep, storeRes_eq]; split <;> simp
  · simp only [updC, regStep, storeRes_eq]; split <;> simp
  · simp only [updD, regStep, storeRes_eq]; split <;> simp [vecStep, linStep]

theorem levelA_frame (E : Env P B Z M V C X O) (o : Opts) (s : St P B Z M V C X O) :
    (levelA E o s).2.status = s.status ∧ (levelA E o s).2.c = s.c ∧
    ∃ st, (levelA E o s).2.qpSt = s.qpSt ++ [st] := by
  simp only [levelA, storeRes_eq]
  refine ⟨?_, ?_, ?_⟩
  · simp only [globStep, saveStat, qpSolve, regStep]; split <;> split <;> simp [vecStep]
  · simp only [globStep, saveStat, qpSolve, regStep, if_true]
    cases o.logRes <;> cases o.logOnly <;> simp [vecStep]
  · simp only [globStep, saveStat, qpSolve, regStep]; split <;> split <;> simp [vecStep]

theorem inner_status (E : Env P B Z M V C X O) (o : Opts) (s : St P B Z M V C X O) :
    ∃ l : List Status, (inner E o s).2.qpSt = s.qpSt ++ l ∧
      (inner E o s).2.status = (if o.level = .A ∨ l.all qpOk then s.status else .qpFailure) ∧
      (o.level ≠ .A → l.all qpOk = false → (inner E o s).1 = true) ∧
      (o.level ≠ .D → (inner E o s).2.c = s.c) := by
  unfold inner
  simp only
  cases hl : o.level with
  | A =>
    simp only
    split
    · exact ⟨[], by simp⟩
    · obtain ⟨a, b, st, c⟩ := levelA_frame E o s
      exact ⟨[st], c, by simp [a], by simp, fun _ => b⟩
  | B =>
    simp only
    split
    · exact ⟨[], by simp⟩
    · obtain ⟨l, h1, h2, h3, h4⟩ := asLoop_status E true (updB E o) (postB E)
        (fun s => (upd_frame E o s).1) (fun s => ⟨rfl, rfl, rfl⟩) (o.asIter - s.iter).toNat s
      exact ⟨l, h1, by simpa using h2, fun _ => h3, fun _ => h4 rfl⟩
  | C =>
    simp only
    split
    · exact ⟨[], by simp⟩
    · obtain ⟨l, h1, h2, h3, h4⟩ := asLoop_status E true (updC E o) id
        (fun s => (upd_frame E o s).2.1) (fun s => ⟨rfl, rfl, rfl⟩) (o.asIter - s.iter).toNat s
      exact ⟨l, h1, by simpa using h2, fun _ => h3, fun _ => h4 rfl⟩
  | D =>
    obtain ⟨l, h1, h2, h3, h4⟩ := asLoop_status E false (updD E o) id
      (fun s => (upd_frame E o s).2.2) (fun s => ⟨rfl, rfl, rfl⟩) (o.asIter - s.iter).toNat s
    exact ⟨l, h1, by simpa using h2, fun _ => h3, by simp⟩
  | standard => exact ⟨[], by simp⟩

/-- statuses of an advanced preparation, and the condensed matrices when it is abandoned -/
theorem prepareAdvanced_status (E : Env P B Z M V C X O) (o : Opts) (s s' : St P B Z M V C X O)
    (hr : prepareAdvanced E o s = some s') :
    ∃ l : List Status, s'.qpSt = s.qpSt ++ l ∧
      s'.status = (if o.level = .A ∨ l.all qpOk then s.status else .qpFailure) ∧
      (o.level ≠ .A → o.level ≠ .D → l.all qpOk = false → s'.c = s.c) := by
  unfold prepareAdvanced at hr
  simp only at hr
  split at hr
  · exact absurd hr (by simp)
  · generalize hs2 : (if (startPrep E s).first = true then startPrep E s else
      { startPrep E s with
        b := (E.adv (startPrep E s).p (startPrep E s).z (startPrep E s).m (startPrep E s).b).1
        m := (E.adv (startPrep E s).p (startPrep E s).z (startPrep E s).m (startPrep E s).b).2 }) = t at hr
    have ht : t.qpSt = s.qpSt ∧ t.status = s.status ∧ t.c = s.c := by
      subst hs2; split <;> exact ⟨rfl, rfl, rfl⟩
    obtain ⟨l, h1, h2, h3, h4⟩ := inner_status E o t
    rw [ht.1] at h1
    rw [ht.2.1] at h2
    rw [ht.2.2] at h4
    refine ⟨l, ?_⟩
    generalize inner E o t = r at *
    split at hr
    · simp only [Option.some.injEq] at hr; subst hr
      exact ⟨h1, h2, fun _ hD _ => h4 hD⟩
    · rename_i hr1
      simp only [Option.some.injEq] at hr
      refine ⟨?_, ?_, fun hA _ hb => absurd (h3 hA hb) hr1⟩
      · subst hr; split <;> exact h1
      · subst hr; split <;> exact h2

theorem feedbackQp_tmp (E : Env P B Z M V C X O) (o : Opts) (s : St P B Z M V C X O) :
    (feedbackQp E o s).2.tmp = s.tmp := by
  have hw : ∀ t : St P B Z M V C X O, (warmStart E o t).tmp = t.tmp := by
    intro t; unfold warmStart; split
    · split
      · rfl
      · split <;> rfl
    · rfl
  simp only [feedbackQp, qpSolve, hw]
  cases o.phase <;> cases o.logRes <;> simp [regStep, vecStep, storeRes_eq]

theorem feedback_tmp (E : Env P B Z M V C X O) (o : Opts)
    (hg : ∀ i p b z t m v q, (E.glob i p b z t m v q).2.2.1 = t) (s : St P B Z M V C X O) :
    (feedback E o s).tmp = s.tmp := by
  have h0 : ∀ t : St P B Z M V C X O, (feedbackStat o t).tmp = t.tmp := by
    intro t
    simp only [feedbackStat, saveStat]
    cases t.first <;> cases o.extRes <;> rfl
  simp only [feedback, storeRes_eq]
  split
  · exact (h0 _).trans (feedbackQp_tmp E o s)
  · split <;> simp [globStep, hg, h0, feedbackQp_tmp E o s]

theorem levelA_globOk (E : Env P B Z M V C X O) (o : Opts) (s : St P B Z M V C X O) :
    (levelA E o s).2.globOk = s.globOk ++ [!(levelA E o s).1] := by
  simp only [levelA, globStep, saveStat, qpSolve, regStep, Bool.not_not]
  congr 1
  cases o.logRes <;> cases o.logOnly <;> simp [vecStep, storeRes_eq]

theorem levelA_prep_tmp (E : Env P B Z M V C X O) (o : Opts) (hl : o.level = .A)
    (s t : St P B Z M V C X O) (hp : prepareAdvanced E o s = some t)
    (hok : ∀ k, t.globOk = s.globOk ++ k → ∀ b ∈ k, b = true) : t.tmp = t.z := by
  simp only [prepareAdvanced] at hp
  split at hp
  · simp at hp
  · generalize hs2 : (if (startPrep E s).first = true then startPrep E s else _) = s2 at hp
    have hg2 : s2.globOk = s.globOk := by
      rw [← hs2]; split <;> rfl
    split at hp
    · rename_i hb
      simp only [Option.some.injEq] at hp
      exfalso
      simp only [inner, hl] at hp hb
      split at hb
      · simp at hb
      · rename_i hf
        rw [if_neg hf] at hp
        have := levelA_globOk E o s2
        rw [hb, hp, hg2] at this
        exact absurd (hok _ this false (by simp)) (by simp)
    · simp only [Option.some.injEq] at hp
      rw [← hp]

/-- an inner iteration that returns early has seen a failed QP or a failed globalisation; the problem data
are never changed -/
theorem asLoop_stop (E : Env P B Z M V C X O) (pre : Bool)
    (upd post : St P B Z M V C X O → St P B Z M V C X O)
    (hU : ∀ s, (upd s).globOk = s.globOk ∧ (upd s).p = s.p)
    (hP : ∀ s, (post s).globOk = s.globOk ∧ (post s).p = s.p) :
    ∀ (k : Nat) (s : St P B Z M V C X O), (asLoop E pre upd post k s).2.p = s.p ∧
      ∃ l, (asLoop E pre upd post k s).2.globOk = s.globOk ++ l ∧
      ((asLoop E pre upd post k s).1 = true →
        (asLoop E pre upd post k s).2.status = .qpFailure ∨ false ∈ l) := by
  intro k
  induction k with
  | zero => intro s; exact ⟨rfl, [], by simp [asLoop]⟩
  | succ k ih =>
    intro s
    obtain ⟨u1, u2⟩ := hU s
    obtain ⟨p1, p2⟩ := hP (saveStat (qpSolve E pre (upd s)).2)
    have e1 : (post (saveStat (qpSolve E pre (upd s)).2)).globOk = s.globOk := by
      rw [p1]; simp [saveStat, qpSolve, u1]
    have e2 : (post (saveStat (qpSolve E pre (upd s)).2)).p = s.p := by
      rw [p2]; simp [saveStat, qpSolve, u2]
    simp only [asLoop]
    generalize post (saveStat (qpSolve E pre (upd s)).2) = w at *
    generalize (qpSolve E pre (upd s)).1 = st at *
    cases hok : qpOk st
    · exact ⟨by simpa using e2, [], by simp [e1], by simp⟩
    · simp only [Bool.not_true, Bool.false_eq_true, if_false]
      cases hg : (globStep E w).1
      · refine ⟨by simpa [globStep] using e2, [false], ?_, by simp⟩
        have : (E.glob w.iter w.p w.b w.z w.tmp w.m w.v w.o).1 = false := hg
        simp [globStep, e1, this]
      · simp only [Bool.not_true, Bool.false_eq_true, if_false]
        obtain ⟨h0, l, h1, h2⟩ := ih { (globStep E w).2 with iter := (globStep E w).2.iter + 1 }
        refine ⟨by rw [h0]; simpa [globStep] using e2, (globStep E w).1 :: l, ?_, ?_⟩
        · rw [h1]; simp [globStep, e1]
        · intro h; rcases h2 h with h | h
          · exact Or.inl h
          · exact Or.inr (by simp [h])

theorem inner_stop (E : Env P B Z M V C X O) (o : Opts) (s : St P B Z M V C X O) :
    (inner E o s).2.p = s.p ∧ ∃ l, (inner E o s).2.globOk = s.globOk ++ l ∧
      ((inner E o s).1 = true → (inner E o s).2.status = .qpFailure ∨ false ∈ l) := by
  have hB : ∀ s, (updB E o s).globOk = s.globOk ∧ (updB E o s).p = s.p := by
    intro s; simp only [updB, regStep, storeRes_eq]; split <;> simp
  have hC : ∀ s, (updC E o s).globOk = s.globOk ∧ (updC E o s).p = s.p := by
    intro s; simp only [updC, regStep, storeRes_eq]; split <;> simp
  have hD : ∀ s, (updD E o s).globOk = s.globOk ∧ (updD E o s).p = s.p := by
    intro s; simp only [updD, regStep, storeRes_eq]; split <;> simp [vecStep, linStep]
  unfold inner
  simp only
  cases hl : o.level with
  | A =>
    simp only
    split
    · exact ⟨rfl, [], by simp⟩
    · refine ⟨?_, _, levelA_globOk E o s, fun h => Or.inr (by simp [h])⟩
      simp only [levelA, globStep, saveStat, qpSolve, regStep]
      cases o.logRes <;> cases o.logOnly <;> simp [vecStep, storeRes_eq]
  | B =>
    simp only
    split
    · exact ⟨rfl, [], by simp⟩
    · exact asLoop_stop E true _ (postB E) hB (fun s => ⟨rfl, rfl⟩) _ s
  | C =>
    simp only
    split
    · exact ⟨rfl, [], by simp⟩
    · exact asLoop_stop E true _ _ hC (fun s => ⟨rfl, rfl⟩) _ s
  | D => exact asLoop_stop E false _ _ hD (fun s => ⟨rfl, rfl⟩) _ s
  | standard => exact ⟨rfl, [], by simp⟩

/-- an advanced preparation that saw no failure ends with a fresh linearisation, regularisation and
condensing at its final iterate -/
theorem prepareAdvanced_lin (E : Env P B Z M V C X O) (o : Opts) (s t : St P B Z M V C X O)
    (hp : prepareAdvanced E o s = some t) (hst : t.status ≠ .qpFailure)
    (hok : ∀ l, t.globOk = s.globOk ++ l → false ∉ l) :
    t.p = s.p ∧ ∃ m v, t.m = (E.regLhs (E.lin s.p t.z m) v).1 ∧ t.c = E.cond t.m := by
  simp only [prepareAdvanced] at hp
  split at hp
  · simp at hp
  · generalize hs2 : (if (startPrep E s).first = true then startPrep E s else _) = s2 at hp
    have hg2 : s2.globOk = s.globOk ∧ s2.p = s.p := by
      rw [← hs2]; split <;> exact ⟨rfl, rfl⟩
    obtain ⟨h1, l, h2, h3⟩ := inner_stop E o s2
    split at hp
    · rename_i hb
      simp only [Option.some.injEq] at hp
      subst hp
      rcases h3 hb with h | h
      · exact absurd h hst
      · exact absurd h (hok l (by rw [h2, hg2.1]))
    · simp only [Option.some.injEq] at hp
      subst hp
      have hpp := h1.trans hg2.2
      split <;> exact ⟨hpp, (inner E o s2).2.m, (inner E o s2).2.v, by simp only [lhsStep, linStep, hpp], rfl⟩

end Acados.Rti
