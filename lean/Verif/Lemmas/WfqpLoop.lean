import Verif.Spec.WfqpLoop
import Verif.Lemmas.SqpLoop
/-! Helper lemmas for the loop of SQP_WITH_FEASIBLE_QP. -/
namespace Acados.WfqpLoop
variable {K X : Type*} [Field K] [LinearOrder K] [IsStrictOrderedRing K]

theorem everywhere_nil (P : List (Ev X) → Ev X → Prop) : Everywhere P [] := by
  intro pre ev post h
  simp at h

theorem everywhere_snoc {P : List (Ev X) → Ev X → Prop} {l : List (Ev X)} {a : Ev X}
    (h : Everywhere P l) (ha : P l a) : Everywhere P (l ++ [a]) := by
  intro pre ev post he
  rcases List.eq_nil_or_concat post with rfl | ⟨q, b, rfl⟩
  · have := List.append_inj' he rfl
    obtain ⟨rfl, h2⟩ := this
    simp only [List.cons.injEq, and_true] at h2
    subst h2; exact ha
  · rw [List.concat_eq_append, ← List.cons_append, ← List.append_assoc] at he
    have := List.append_inj' he rfl
    exact h _ _ _ this.1

/-- everything that is shown for every event of a log; `wd`, `al`, `uc`: the options -/
def EvOk (o : Opts K) (e : Env K X) (ws0 : Int) (statM nIt nNorm : Nat) (pre : List (Ev X)) (ev : Ev X) : Prop :=
  (o.maxIter < (statM : Int) → InBounds statM nIt nNorm ev) ∧
  match ev with
  | .direction m => m = modeAfter o.mode pre ∧
      (1 ≤ o.watchdogMax → o.allow = true → zeroSince pre < o.watchdogMax)
  | .switch .bo => modeAfter o.mode pre = .nominal ∧
      ∃ st, lastQp pre = some (.nominal, st) ∧ st ≠ .success
  | .switch .nominal => modeAfter o.mode pre = .bo ∧ o.allow = true ∧ zeroSince pre = o.watchdogMax
  | .switch _ => False
  | .qp k _ w => modeAfter o.mode pre = (if k = .nominal then .nominal else .bo) ∧
      (k = .bo → lastQp pre = some (.feas, .success)) ∧
      (o.useCon = false → k ≠ .feas → regsSince .nominal pre = 1) ∧
      (ws0 = o.qpWarmStart →
        w = if dirs pre = 1 ∧ o.warmStartFirst = false then 0 else o.qpWarmStart)
  | .reg t => t = .nominal
  | .slack z => ∃ x, z = true ↔ e.l1 (dirs pre - 1) x / cmax 1 (e.nns : Dbl) < o.tolIneq
  | .glob _ => ∃ k, lastQp pre = some (k, .success) ∧ k ≠ .feas
  | _ => True

/-- part of the invariant that only the log and the mode matter for -/
structure Core (o : Opts K) (e : Env K X) (ws0 : Int) (sM nIt nNorm : Nat) (s : St K X) : Prop where
  ok : Everywhere (EvOk o e ws0 sM nIt nNorm) s.log
  mode : modeAfter o.mode s.log = s.mode
  cnt : zeroSince s.log = s.counter
  reg : s.regPtr = .nominal
  ws : ws0 = o.qpWarmStart → s.warmStart = o.qpWarmStart

section
variable {o : Opts K} {e : Env K X} {ws0 : Int} {sM nIt nNorm : Nat} {s : St K X}

@[simp] theorem modeAfter_append (m : Mode) (a b : List (Ev X)) :
    modeAfter m (a ++ b) = modeAfter (modeAfter m a) b := by simp [modeAfter]
theorem zeroSince_append (a : List (Ev X)) (b : Ev X) : zeroSince (a ++ [b]) =
    (match b with | .switch .nominal => 0 | .slack true => zeroSince a + 1 | _ => zeroSince a) := by
  simp only [zeroSince, List.foldl_append, List.foldl_cons, List.foldl_nil]
  cases b with
  | switch m => cases m <;> rfl
  | slack z => cases z <;> rfl
  | _ => rfl
theorem lastQp_append (a : List (Ev X)) (b : Ev X) : lastQp (a ++ [b]) =
    (match b with | .qp k st _ => some (k, st) | _ => lastQp a) := by
  simp only [lastQp, List.foldl_append, List.foldl_cons, List.foldl_nil]
  cases b <;> rfl
theorem dirs_append (a : List (Ev X)) (b : Ev X) : dirs (a ++ [b]) =
    (match b with | .direction _ => dirs a + 1 | _ => dirs a) := by
  simp only [dirs, List.foldl_append, List.foldl_cons, List.foldl_nil]
  cases b <;> rfl
theorem regsSince_append (t : Target) (a : List (Ev X)) (b : Ev X) : regsSince t (a ++ [b]) =
    (match b with
      | .direction _ => 0 | .reg t' => if t' = t then regsSince t a + 1 else regsSince t a
      | _ => regsSince t a) := by
  simp only [regsSince, List.foldl_append, List.foldl_cons, List.foldl_nil]
  cases b <;> rfl

/-- events without effect on the mode bookkeeping -/
def Plain : Ev X → Prop
  | .stat .. | .store .. | .evalRes .. | .logPrimal .. | .logDual .. => True
  | _ => False

theorem plain_frame {l : List (Ev X)} {l2 : List (Ev X)} (h : ∀ ev ∈ l2, Plain ev) (m : Mode) :
    modeAfter m (l ++ l2) = modeAfter m l ∧ zeroSince (l ++ l2) = zeroSince l ∧
    lastQp (l ++ l2) = lastQp l ∧ (∀ t, regsSince t (l ++ l2) = regsSince t l) ∧
    dirs (l ++ l2) = dirs l := by
  induction l2 generalizing l with
  | nil => simp
  | cons a b ih =>
    have ha := h a (by simp)
    have hb := ih (l := l ++ [a]) (fun ev hev => h ev (by simp [hev]))
    rw [List.append_assoc, List.singleton_append] at hb
    obtain ⟨h1, h2, h3, h4, h5⟩ := hb
    cases a <;> simp only [Plain] at ha <;>
      (refine ⟨by rw [h1]; simp [modeAfter], by rw [h2, zeroSince_append], by rw [h3, lastQp_append],
        fun t => by rw [h4, regsSince_append], by rw [h5, dirs_append]⟩)

theorem plain_ok {l : List (Ev X)} {l2 : List (Ev X)} (hl : Everywhere (EvOk o e ws0 sM nIt nNorm) l)
    (h : ∀ ev ∈ l2, Plain ev ∧ (o.maxIter < (sM : Int) → InBounds sM nIt nNorm ev)) :
    Everywhere (EvOk o e ws0 sM nIt nNorm) (l ++ l2) := by
  induction l2 generalizing l with
  | nil => simpa using hl
  | cons a b ih =>
    have ha := h a (by simp)
    have : EvOk o e ws0 sM nIt nNorm l a := by
      refine ⟨ha.2, ?_⟩
      have := ha.1
      cases a <;> simp_all [Plain]
    have hb := ih (l := l ++ [a]) (everywhere_snoc hl this) (fun ev hev => h ev (by simp [hev]))
    rwa [List.append_assoc, List.singleton_append] at hb

/-- appending plain events keeps the core invariant -/
theorem core_plain (hc : Core o e ws0 sM nIt nNorm s) (l2 : List (Ev X)) (s' : St K X)
    (hl : s'.log = s.log ++ l2) (hm : s'.mode = s.mode) (hcn : s'.counter = s.counter)
    (hr : s'.regPtr = s.regPtr) (hw : s'.warmStart = s.warmStart) (h : ∀ ev ∈ l2, Plain ev ∧ (o.maxIter < (sM : Int) → InBounds sM nIt nNorm ev)) :
    Core o e ws0 sM nIt nNorm s' := by
  have hf := plain_frame (l := s.log) (fun ev hev => (h ev hev).1) o.mode
  refine ⟨by rw [hl]; exact plain_ok hc.ok h, by rw [hl, hm, hf.1]; exact hc.mode, ?_, ?_, ?_⟩
  · rw [hl, hcn, hf.2.1]; exact hc.cnt
  · rw [hr]; exact hc.reg
  · rw [hw]; exact hc.ws

/-- `logQp` only appends in-range statistics events -/
theorem logQp_eq (b : Bool) (s : St K X) : ∃ l2 : List (Ev X), logQp b s = s.emit l2 ∧
    ∀ ev ∈ l2, Plain ev ∧ ∃ c, ev = .stat s.iter c ∧ s.iter < s.statM ∧ c < statN := by
  unfold logQp
  split
  · next h =>
    split
    · exact ⟨_, rfl, by simp [Plain, statN, h]⟩
    · split
      · exact ⟨_, rfl, by simp [Plain, statN, h]⟩
      · exact ⟨_, rfl, by simp [Plain, statN, h]⟩
    · exact ⟨[], by simp [St.emit], by simp⟩
  · exact ⟨[], by simp [St.emit], by simp⟩

@[simp] theorem emit_log (l : List (Ev X)) : (s.emit l).log = s.log ++ l := rfl

theorem logQp_frame (b : Bool) (s : St K X) :
    (logQp b s).mode = s.mode ∧ (logQp b s).counter = s.counter ∧ (logQp b s).regPtr = s.regPtr ∧
    (logQp b s).iter = s.iter ∧ (logQp b s).x = s.x ∧ (logQp b s).statM = s.statM ∧
    (logQp b s).status = s.status ∧ (logQp b s).qps = s.qps ∧
    (logQp b s).warmStart = s.warmStart ∧
    lastQp (logQp b s).log = lastQp s.log ∧
    (∀ t, regsSince t (logQp b s).log = regsSince t s.log) ∧
    dirs (logQp b s).log = dirs s.log := by
  obtain ⟨l2, h, hp⟩ := logQp_eq b s
  have hf := plain_frame (l := s.log) (fun ev hev => (hp ev hev).1) .nominal
  rw [h]
  exact ⟨rfl, rfl, rfl, rfl, rfl, rfl, rfl, rfl, rfl, hf.2.2.1, hf.2.2.2.1, hf.2.2.2.2⟩

theorem logQp_core (b : Bool) (hc : Core o e ws0 sM nIt nNorm s) (hM : s.statM = sM) :
    Core o e ws0 sM nIt nNorm (logQp b s) := by
  obtain ⟨l2, h, hp⟩ := logQp_eq b s
  rw [h]
  refine core_plain hc l2 _ rfl rfl rfl rfl rfl fun ev hev => ?_
  obtain ⟨h1, c, rfl, h2, h3⟩ := hp ev hev
  exact ⟨h1, fun _ => by rw [hM] at h2; exact ⟨h2, h3⟩⟩

theorem solveQp_core (k : Kind) (st : Status) (hc : Core o e ws0 sM nIt nNorm s)
    (hd : dirs s.log = s.iter + 1)
    (hm : s.mode = if k = .nominal then .nominal else .bo)
    (hb : k = .bo → lastQp s.log = some (.feas, .success))
    (hr : o.useCon = false → k ≠ .feas →
      regsSince .nominal s.log + (if s.qps < 2 then 1 else 0) = 1) :
    Core o e ws0 sM nIt nNorm (solveQp o k st s) ∧
    lastQp (solveQp o k st s).log = some (k, st) ∧ dirs (solveQp o k st s).log = s.iter + 1 ∧
    (o.useCon = false → regsSince .nominal (solveQp o k st s).log =
      regsSince .nominal s.log + if s.qps < 2 ∧ k ≠ .feas then 1 else 0) := by
  set R : List (Ev X) :=
    if s.qps < 2 ∧ (k ≠ .feas ∨ o.useCon = true) then [.reg s.regPtr] else [] with hR
  set w : Int := if s.iter = 0 ∧ o.warmStartFirst = false then 0 else s.warmStart
  have hlog : (solveQp o k st s).log = s.log ++ R ++ [.qp k st w] := rfl
  have h1 : Everywhere (EvOk o e ws0 sM nIt nNorm) (s.log ++ R) ∧ modeAfter o.mode (s.log ++ R) = s.mode ∧
      zeroSince (s.log ++ R) = s.counter ∧ lastQp (s.log ++ R) = lastQp s.log ∧
      dirs (s.log ++ R) = s.iter + 1 ∧
      (o.useCon = false → regsSince .nominal (s.log ++ R) =
        regsSince .nominal s.log + if s.qps < 2 ∧ k ≠ .feas then 1 else 0) := by
    rw [hR]
    split
    · next hq =>
      refine ⟨everywhere_snoc hc.ok ⟨fun _ => trivial, hc.reg⟩, ?_, ?_, ?_, ?_, ?_⟩
      · rw [← hc.mode]; simp [modeAfter]
      · rw [← hc.cnt, zeroSince_append]
      · rw [lastQp_append]
      · rw [dirs_append]; exact hd
      · intro hu
        rw [regsSince_append]
        simp only [hc.reg, if_true]
        rw [if_pos]
        exact ⟨hq.1, by simpa [hu] using hq.2⟩
    · next hq =>
      refine ⟨by simpa using hc.ok, by simpa using hc.mode, by simpa using hc.cnt, by simp, by simpa using hd, ?_⟩
      intro hu
      rw [if_neg]
      · simp
      · rintro ⟨h1, h2⟩; exact hq ⟨h1, Or.inl h2⟩
  obtain ⟨a1, a2, a3, a4, a6, a5⟩ := h1
  refine ⟨⟨?_, ?_, ?_, ?_, ?_⟩, ?_, ?_, ?_⟩
  · rw [hlog]
    refine everywhere_snoc a1 ⟨fun _ => trivial, ?_, ?_, ?_, ?_⟩
    · rw [a2, hm]
    · intro h; rw [a4]; exact hb h
    · intro hu hk
      rw [a5 hu]
      have := hr hu hk
      simpa [hk] using this
    · intro h0
      rw [a6]
      simp only [w, hc.ws h0, Nat.add_eq_right]
  · rw [hlog, modeAfter_append, a2]; rfl
  · rw [hlog, zeroSince_append]; exact a3
  · show (if _ then Target.nominal else s.regPtr) = _
    split
    · rfl
    · exact hc.reg
  · intro h0
    show (if s.iter = 0 then o.qpWarmStart else s.warmStart) = _
    rw [hc.ws h0]; simp
  · rw [hlog, lastQp_append]
  · rw [hlog, dirs_append]; exact a6
  · intro hu; rw [hlog, regsSince_append]; exact a5 hu

theorem watchdog_eq (o : Opts K) (e : Env K X) (s : St K X) : watchdog o e s =
    if o.allow = true ∧
        (if zeroSlacks o e s = true then s.counter + 1 else s.counter) = o.watchdogMax then
      { s with counter := 0, mode := .nominal
               log := s.log ++ [.slack (zeroSlacks o e s)] ++ [.switch .nominal] }
    else { s with counter := if zeroSlacks o e s = true then s.counter + 1 else s.counter
                  log := s.log ++ [.slack (zeroSlacks o e s)] } := rfl

theorem watchdog_core (hc : Core o e ws0 sM nIt nNorm s) (hm : s.mode = .bo)
    (hd : dirs s.log = s.iter + 1) :
    Core o e ws0 sM nIt nNorm (watchdog o e s) := by
  rw [watchdog_eq]
  have hz : ∃ x, zeroSlacks o e s = true ↔ e.l1 (dirs s.log - 1) x / cmax 1 (e.nns : Dbl) < o.tolIneq :=
    ⟨s.x, by rw [hd, Nat.add_sub_cancel, zeroSlacks, decide_eq_true_iff]⟩
  generalize zeroSlacks o e s = z at hz
  have h1 : Everywhere (EvOk o e ws0 sM nIt nNorm) (s.log ++ [.slack z]) :=
    everywhere_snoc hc.ok ⟨fun _ => trivial, hz⟩
  have h2 : modeAfter o.mode (s.log ++ [.slack z]) = .bo := by
    rw [modeAfter_append, hc.mode, hm]; rfl
  have h3 : zeroSince (s.log ++ [.slack z]) = if z then s.counter + 1 else s.counter := by
    rw [zeroSince_append, hc.cnt]; cases z <;> rfl
  generalize (if z = true then s.counter + 1 else s.counter) = c at h3 ⊢
  split
  · next h =>
    have h4 : EvOk o e ws0 sM nIt nNorm (s.log ++ [.slack z]) (.switch .nominal) :=
      ⟨fun _ => trivial, h2, h.1, by rw [h3]; exact h.2⟩
    refine ⟨everywhere_snoc h1 h4, ?_, ?_, hc.reg, hc.ws⟩
    · simp [modeAfter]
    · rw [zeroSince_append]
  · exact ⟨h1, by rw [h2]; exact hm.symm, h3, hc.reg, hc.ws⟩

/-- the counter stays below the limit -/
theorem watchdog_lt (hw : 1 ≤ o.watchdogMax) (ha : o.allow = true)
    (h : s.counter < o.watchdogMax) : (watchdog o e s).counter < o.watchdogMax := by
  rw [watchdog_eq]
  generalize zeroSlacks o e s = z
  have hcc : (if z = true then s.counter + 1 else s.counter) ≤ o.watchdogMax := by split <;> omega
  generalize (if z = true then s.counter + 1 else s.counter) = c at hcc ⊢
  split
  · simp only; omega
  · next hn =>
    simp only [ha, true_and] at hn
    simp only
    omega

theorem watchdog_frame (o : Opts K) (e : Env K X) (s : St K X) :
    (watchdog o e s).iter = s.iter ∧ (watchdog o e s).x = s.x ∧
    (watchdog o e s).statM = s.statM ∧ (watchdog o e s).status = s.status ∧
    ((watchdog o e s).mode = .nominal ∨ (watchdog o e s).mode = s.mode) ∧
    (watchdog o e s).warmStart = s.warmStart ∧
    lastQp (watchdog o e s).log = lastQp s.log ∧
    dirs (watchdog o e s).log = dirs s.log := by
  rw [watchdog_eq]
  generalize zeroSlacks o e s = z
  generalize (if z = true then s.counter + 1 else s.counter) = c
  split
  · refine ⟨rfl, rfl, rfl, rfl, Or.inl rfl, rfl, ?_, ?_⟩
    · rw [lastQp_append, lastQp_append]
    · rw [dirs_append, dirs_append]
  · exact ⟨rfl, rfl, rfl, rfl, Or.inr rfl, rfl, by rw [lastQp_append], by rw [dirs_append]⟩

/-- fields that the search direction computation does not touch -/
def Same (s s' : St K X) : Prop :=
  s'.iter = s.iter ∧ s'.x = s.x ∧ s'.statM = s.statM ∧ s'.res = s.res ∧ s'.cost = s.cost ∧
  s'.stepNorm = s.stepNorm ∧ s'.est = s.est ∧ s'.prevTot = s.prevTot ∧ s'.timeTot = s.timeTot

theorem Same.trans {a b c : St K X} (h1 : Same a b) (h2 : Same b c) : Same a c := by
  obtain ⟨p1, p2, p3, p4, p5, p6, p7, p8, p9⟩ := h1
  obtain ⟨q1, q2, q3, q4, q5, q6, q7, q8, q9⟩ := h2
  exact ⟨q1.trans p1, q2.trans p2, q3.trans p3, q4.trans p4, q5.trans p5, q6.trans p6, q7.trans p7,
    q8.trans p8, q9.trans p9⟩

theorem same_solveQp (k : Kind) (st : Status) (s : St K X) : Same s (solveQp o k st s) :=
  ⟨rfl, rfl, rfl, rfl, rfl, rfl, rfl, rfl, rfl⟩

theorem same_logQp (b : Bool) (s : St K X) : Same s (logQp b s) := by
  obtain ⟨l2, h, -⟩ := logQp_eq b s
  rw [h]
  exact ⟨rfl, rfl, rfl, rfl, rfl, rfl, rfl, rfl, rfl⟩

theorem same_watchdog (s : St K X) : Same s (watchdog o e s) := by
  rw [watchdog_eq]
  generalize zeroSlacks o e s = z
  generalize (if z = true then s.counter + 1 else s.counter) = c
  split <;> exact ⟨rfl, rfl, rfl, rfl, rfl, rfl, rfl, rfl, rfl⟩

/-- one QP and its statistics -/
theorem qp_step (k : Kind) (st : Status) (b : Bool) (hc : Core o e ws0 sM nIt nNorm s)
    (hM : s.statM = sM) (hd : dirs s.log = s.iter + 1)
    (hm : s.mode = if k = .nominal then .nominal else .bo)
    (hb : k = .bo → lastQp s.log = some (.feas, .success))
    (hr : o.useCon = false → k ≠ .feas →
      regsSince .nominal s.log + (if s.qps < 2 then 1 else 0) = 1) :
    let s' := logQp b (solveQp o k st s)
    Core o e ws0 sM nIt nNorm s' ∧ Same s s' ∧ lastQp s'.log = some (k, st) ∧
    dirs s'.log = s'.iter + 1 ∧ s'.mode = s.mode ∧ s'.qps = s.qps + 1 ∧ s'.counter = s.counter ∧
    s'.status = (if st ≠ .success then .qpFailure else s.status) ∧
    (o.useCon = false → regsSince .nominal s'.log =
      regsSince .nominal s.log + if s.qps < 2 ∧ k ≠ .feas then 1 else 0) := by
  obtain ⟨h1, h2, h3, h4⟩ := solveQp_core k st hc hd hm hb hr
  obtain ⟨f1, f2, f3, f4, f5, f6, f7, f8, f9, f10, f11, f12⟩ := logQp_frame b (solveQp o k st s)
  refine ⟨logQp_core b h1 hM, (same_solveQp k st s).trans (same_logQp b _), by rw [f10, h2], ?_, f1,
    f8, f2, f7, fun hu => by rw [f11, h4 hu]⟩
  rw [f12, h3, f4]; rfl

/-- result of the Byrd-Omojokun computation -/
theorem boDir_step (hc : Core o e ws0 sM nIt nNorm s)
    (hM : s.statM = sM) (hd : dirs s.log = s.iter + 1) (hm : s.mode = .bo)
    (hr : o.useCon = false →
      regsSince .nominal s.log + (if s.qps + 1 < 2 then 1 else 0) = 1) :
    let r := boDir o e s
    Core o e ws0 sM nIt nNorm r.2 ∧ Same s r.2 ∧ dirs r.2.log = s.iter + 1 ∧ r.2.mode = .bo ∧
    r.2.counter = s.counter ∧
    ((r.1 = .success ∧ lastQp r.2.log = some (.bo, .success) ∧
        e.qp .feas s.iter s.x = .success ∧ e.qp .bo s.iter s.x = .success) ∨
      (r.1 = .qpFailure ∧ r.2.status = .qpFailure ∧
        (e.qp .feas s.iter s.x ≠ .success ∨ e.qp .bo s.iter s.x ≠ .success))) := by
  obtain ⟨a1, a2, a3, a4, a5, a6, a7, a8, a9⟩ :=
    qp_step (o := o) .feas (e.qp .feas s.iter s.x) true hc hM hd (by simpa using hm) (by simp)
      (by simp)
  simp only [boDir]
  generalize logQp true (solveQp o .feas (e.qp .feas s.iter s.x) s) = s1 at *
  obtain ⟨ai, ax, aM, -⟩ := id a2
  rw [ai] at a4
  split
  · next h =>
    exact ⟨⟨a1.ok, a1.mode, a1.cnt, a1.reg, a1.ws⟩, a2, a4, by rw [← hm]; exact a5, a7,
      Or.inr ⟨rfl, rfl, Or.inl h⟩⟩
  · next h =>
    rw [not_not] at h
    obtain ⟨b1, b2, b3, b4, b5, b6, b7, b8, b9⟩ :=
      qp_step (o := o) .bo (e.qp .bo s.iter s.x) false a1 (by rw [aM]; exact hM) (by rw [ai]; exact a4)
        (by rw [a5]; simpa using hm) (fun _ => by rw [a3, h])
        (fun hu _ => by rw [a9 hu, a6]; simpa using hr hu)
    generalize logQp false (solveQp o .bo (e.qp .bo s.iter s.x) s1) = s2 at *
    obtain ⟨bi, -⟩ := id b2
    have hd2 : dirs s2.log = s.iter + 1 := by rw [b4, bi, ai]
    have hm2 : s2.mode = .bo := by rw [b5, a5]; exact hm
    have hc2 : s2.counter = s.counter := by rw [b7, a7]
    split
    · next h2 =>
      exact ⟨⟨b1.ok, b1.mode, b1.cnt, b1.reg, b1.ws⟩, a2.trans b2, hd2, hm2, hc2,
        Or.inr ⟨rfl, rfl, Or.inr h2⟩⟩
    · next h2 =>
      rw [not_not] at h2
      refine ⟨b1, a2.trans b2, hd2, hm2, hc2, Or.inl ⟨rfl, ?_, h, h2⟩⟩
      rw [b3, h2]

/-- the Byrd-Omojokun branch -/
theorem boPart_step (hc : Core o e ws0 sM nIt nNorm s)
    (hM : s.statM = sM) (hd : dirs s.log = s.iter + 1) (hm : s.mode = .bo)
    (hr : o.useCon = false →
      regsSince .nominal s.log + (if s.qps + 1 < 2 then 1 else 0) = 1) :
    let r := boPart o e s
    Core o e ws0 sM nIt nNorm r.2 ∧ Same s r.2 ∧ dirs r.2.log = s.iter + 1 ∧
    (r.2.mode = .nominal ∨ r.2.mode = .bo) ∧
    (1 ≤ o.watchdogMax → o.allow = true → s.counter < o.watchdogMax →
      r.2.counter < o.watchdogMax) ∧
    ((r.1 = .success ∧ lastQp r.2.log = some (.bo, .success) ∧
        e.qp .feas s.iter s.x = .success ∧ e.qp .bo s.iter s.x = .success) ∨
      (r.1 = .qpFailure ∧ r.2.status = .qpFailure ∧
        (e.qp .feas s.iter s.x ≠ .success ∨ e.qp .bo s.iter s.x ≠ .success))) := by
  obtain ⟨a1, a2, a3, a4, a5, a6⟩ := boDir_step (e := e) hc hM hd hm hr
  simp only [boPart]
  generalize boDir o e s = r at *
  obtain ⟨f1, f2, f3, f4, f5, f6, f7, f8⟩ := watchdog_frame o e r.2
  refine ⟨watchdog_core a1 a4 (by rw [a3, a2.1]), a2.trans (same_watchdog _), by rw [f8, a3], ?_, ?_, ?_⟩
  · rw [a4] at f5; exact f5
  · intro h1 h2 h3
    exact watchdog_lt h1 h2 (by rw [a5]; exact h3)
  · rw [f7, f4]; exact a6

/-- what a search direction computation guarantees -/
theorem searchDir_step (hc : Core o e ws0 sM nIt nNorm s)
    (hM : s.statM = sM) (hd : dirs s.log = s.iter)
    (hcn : 1 ≤ o.watchdogMax → o.allow = true → s.counter < o.watchdogMax) :
    let r := searchDir o e s
    Core o e ws0 sM nIt nNorm r.2 ∧ Same s r.2 ∧ dirs r.2.log = s.iter + 1 ∧
    (1 ≤ o.watchdogMax → o.allow = true → r.2.counter < o.watchdogMax) ∧
    ((r.1 = .success ∧ (r.2.mode = .nominal ∨ r.2.mode = .bo) ∧
        ((s.mode = .nominal ∧ e.qp .nominal s.iter s.x = .success ∧
            lastQp r.2.log = some (.nominal, .success)) ∨
          ((s.mode = .bo ∨ s.mode = .nominal ∧ e.qp .nominal s.iter s.x ≠ .success) ∧
            e.qp .feas s.iter s.x = .success ∧ e.qp .bo s.iter s.x = .success ∧
            lastQp r.2.log = some (.bo, .success)))) ∨
      (r.1 = .qpFailure ∧ r.2.status = .qpFailure ∧
        (s.mode = .bo ∨ s.mode = .nominal ∧ e.qp .nominal s.iter s.x ≠ .success) ∧
        (e.qp .feas s.iter s.x ≠ .success ∨ e.qp .bo s.iter s.x ≠ .success)) ∨
      (r.1 = .nanDetected ∧ r.2.status = s.status ∧ (s.mode = .feas ∨ s.mode = .other))) := by
  set s0 : St K X := { s with qps := 0, log := s.log ++ [.direction s.mode] } with hs0
  have hok : EvOk o e ws0 sM nIt nNorm s.log (.direction s.mode) :=
    ⟨fun _ => trivial, hc.mode.symm, by rw [hc.cnt]; exact hcn⟩
  have c0 : Core o e ws0 sM nIt nNorm s0 := by
    refine ⟨everywhere_snoc hc.ok hok, ?_, ?_, hc.reg, hc.ws⟩
    · rw [hs0]; simp only [modeAfter_append, hc.mode]; rfl
    · rw [hs0]; simp only [zeroSince_append]; exact hc.cnt
  have d0 : dirs s0.log = s0.iter + 1 := by
    rw [hs0]; simp only [dirs_append]; rw [hd]
  have r0 : regsSince .nominal s0.log = 0 := by
    rw [hs0]; simp only [regsSince_append]
  have same0 : Same s s0 := ⟨rfl, rfl, rfl, rfl, rfl, rfl, rfl, rfl, rfl⟩
  have hM0 : s0.statM = sM := hM
  have q0 : s0.qps = 0 := rfl
  have i0 : s0.iter = s.iter := rfl
  have x0 : s0.x = s.x := rfl
  have m0 : s0.mode = s.mode := rfl
  have k0 : s0.counter = s.counter := rfl
  have t0 : s0.status = s.status := rfl
  have hdef : searchDir o e s = (match s0.mode with
    | .nominal =>
      let s1 := logQp false (solveQp o .nominal (e.qp .nominal s.iter s.x) s0)
      if e.qp .nominal s.iter s.x ≠ .success then
        boPart o e { s1 with mode := .bo, log := s1.log ++ [.switch .bo] }
      else (.success, s1)
    | .bo => boPart o e s0
    | _ => (.nanDetected, s0)) := rfl
  rw [hdef]
  clear_value s0
  clear hdef
  cases hmode : s0.mode with
  | nominal =>
    rw [m0] at hmode
    obtain ⟨a1, a2, a3, a4, a5, a6, a7, a8, a9⟩ :=
      qp_step (o := o) .nominal (e.qp .nominal s.iter s.x) false c0 hM0 d0
        (by rw [m0]; simpa using hmode) (by simp) (fun _ _ => by rw [r0, q0]; rfl)
    simp only
    generalize logQp false (solveQp o .nominal (e.qp .nominal s.iter s.x) s0) = s1 at *
    obtain ⟨ai, ax, aM, -⟩ := id a2
    split
    · next h =>
      set s2 : St K X := { s1 with mode := .bo, log := s1.log ++ [.switch .bo] } with hs2
      have hok2 : EvOk o e ws0 sM nIt nNorm s1.log (.switch .bo) :=
        ⟨fun _ => trivial, by rw [a1.mode, a5, m0]; exact hmode, _, a3, h⟩
      have c2 : Core o e ws0 sM nIt nNorm s2 := by
        refine ⟨everywhere_snoc a1.ok hok2, ?_, ?_, a1.reg, a1.ws⟩
        · rw [hs2]; simp [modeAfter]
        · rw [hs2]; simp only [zeroSince_append]; exact a1.cnt
      have hd2 : dirs s2.log = s2.iter + 1 := by
        rw [hs2]; simp only [dirs_append]; exact a4
      have hq2 : s2.qps = 1 := by show s1.qps = 1; rw [a6, q0]
      have hr2 : o.useCon = false → regsSince .nominal s2.log = 1 := by
        intro hu
        rw [hs2]; simp only [regsSince_append]; rw [a9 hu, r0, q0]; rfl
      have hi2 : s2.iter = s.iter := by show s1.iter = _; rw [ai, i0]
      have hx2 : s2.x = s.x := by show s1.x = _; rw [ax, x0]
      have hk2 : s2.counter = s.counter := by show s1.counter = _; rw [a7, k0]
      have same2 : Same s s2 := same0.trans (a2.trans ⟨rfl, rfl, rfl, rfl, rfl, rfl, rfl, rfl, rfl⟩)
      have hm2 : s2.mode = .bo := rfl
      have hM2 : s2.statM = sM := by show s1.statM = _; rw [aM]; exact hM0
      clear_value s2
      obtain ⟨b1, b2, b3, b4, b5, b6⟩ := boPart_step (e := e) c2 hM2 hd2 hm2
        (fun hu => by rw [hr2 hu, hq2]; rfl)
      rw [hi2] at b3 b6
      rw [hx2] at b6
      refine ⟨b1, same2.trans b2, b3, fun h1 h2 => b5 h1 h2 (by rw [hk2]; exact hcn h1 h2), ?_⟩
      rcases b6 with ⟨u1, u2, u3, u4⟩ | ⟨u1, u2, u3⟩
      · exact Or.inl ⟨u1, b4, Or.inr ⟨Or.inr ⟨hmode, h⟩, u3, u4, u2⟩⟩
      · exact Or.inr (Or.inl ⟨u1, u2, Or.inr ⟨hmode, h⟩, u3⟩)
    · next h =>
      rw [not_not] at h
      refine ⟨a1, same0.trans a2, by rw [a4, ai, i0],
        fun h1 h2 => by simp only; rw [a7, k0]; exact hcn h1 h2, Or.inl ⟨rfl, Or.inl ?_, ?_⟩⟩
      · simp only; rw [a5, m0]; exact hmode
      · exact Or.inl ⟨hmode, h, by simp only; rw [a3, h]⟩
  | bo =>
    rw [m0] at hmode
    obtain ⟨b1, b2, b3, b4, b5, b6⟩ := boPart_step (e := e) c0 hM0 d0 (by rw [m0]; exact hmode)
      (fun hu => by rw [r0, q0]; rfl)
    rw [i0] at b3 b6
    rw [x0] at b6
    simp only
    refine ⟨b1, same0.trans b2, b3, fun h1 h2 => b5 h1 h2 (by rw [k0]; exact hcn h1 h2), ?_⟩
    rcases b6 with ⟨u1, u2, u3, u4⟩ | ⟨u1, u2, u3⟩
    · exact Or.inl ⟨u1, b4, Or.inr ⟨Or.inl hmode, u3, u4, u2⟩⟩
    · exact Or.inr (Or.inl ⟨u1, u2, Or.inl hmode, u3⟩)
  | feas =>
    rw [m0] at hmode
    simp only
    refine ⟨c0, same0, by rw [d0, i0], fun h1 h2 => by rw [k0]; exact hcn h1 h2,
      Or.inr (Or.inr ⟨trivial, t0, Or.inl hmode⟩)⟩
  | other =>
    rw [m0] at hmode
    simp only
    refine ⟨c0, same0, by rw [d0, i0], fun h1 h2 => by rw [k0]; exact hcn h1 h2,
      Or.inr (Or.inr ⟨trivial, t0, Or.inr hmode⟩)⟩

/-! ## the loop -/

/-- was the iterate evaluated in this iteration? -/
def Evald (o : Opts K) (n : Nat) : Prop := (n : Int) ≠ o.maxIter ∨ o.evalResAtMaxIter = true

open Acados.Sqp (predicted durations)

/-- invariant at the head of the loop (`mid = false`) and before the termination test (`mid = true`) -/
structure Inv (o : Opts K) (e : Env K X) (p : Persist K) (x0 : X) (mid : Bool) (s : St K X) :
    Prop where
  iterLe : (s.iter : Int) ≤ o.maxIter
  hx : s.x = traj e x0 s.iter
  statM : s.statM = p.statM
  resE : mid = true → Evald o s.iter → s.res = e.res s.x
  hcost : mid = true → Evald o s.iter → o.needsObj = true → s.cost = e.cost s.x
  res0 : (mid = true → ¬ Evald o s.iter) → s.iter = 0 → s.res = p.res
  resN : (mid = true → ¬ Evald o s.iter) → 0 < s.iter → ¬ s.res.HasNan
  hstep : 0 < s.iter → o.tolMinStep > (0 : Dbl) →
    s.stepNorm = e.stepNorm (s.iter - 1) (traj e x0 (s.iter - 1))
  core : Core o e p.warmStart p.statM (o.maxIter + 1).toNat o.maxIter.toNat s
  hdirs : dirs s.log = s.iter
  cnt : 1 ≤ o.watchdogMax → o.allow = true → s.counter < o.watchdogMax
  modes : s.mode = .feas ∨ s.mode = .other → s.iter = 0 ∧ s.status = .ready ∧ s.mode = o.mode
  prev : o.timeoutMax > 0 → mid = false → 0 < s.iter → s.prevTot = e.toc (s.iter - 1)
  prevM : o.timeoutMax > 0 → mid = true → s.prevTot = e.toc s.iter ∧ s.timeTot = e.toc s.iter
  hest : o.timeoutMax > 0 → s.est =
    predicted o.heur p.est (durations e.toc (if mid then s.iter else s.iter - 1))
  steps : ∀ j < s.iter, e.glob j (traj e x0 j) = .success ∧
    ((e.res (traj e x0 j)).HasNan → False) ∧ ¬ (e.res (traj e x0 j)).Below o.toOpts ∧
    (e.qp .nominal j (traj e x0 j) = .success ∨
      e.qp .feas j (traj e x0 j) = .success ∧ e.qp .bo j (traj e x0 j) = .success)

variable {p : Persist K} {x0 : X}

theorem inv_start (h : 0 ≤ o.maxIter) (hp : p.regPtr = .nominal) :
    Inv o e p x0 false (start o p x0) := by
  have hpr : (if o.heur ≠ Sqp.Heur.maxOverall then (0 : K) else p.est) = predicted o.heur p.est [] := by
    cases o.heur <;> simp [predicted]
  refine ⟨by simp [start, h], rfl, rfl, by simp, by simp, fun _ _ => rfl, by simp [start],
    by simp [start], ⟨everywhere_nil _, rfl, rfl, hp, fun h => h⟩, rfl, ?_, fun _ => ⟨rfl, rfl, rfl⟩,
    by simp [start], by simp, fun _ => ?_, by simp [start]⟩
  · intro h1 _; show (0 : Int) < _; omega
  · simpa [durations, start] using hpr

/-- the part of the body before the termination test -/
def pre (o : Opts K) (e : Env K X) (s : St K X) : Option (St K X) :=
  timePhase o e (statPhase o (evalPhase o e s))

theorem evalPhase_frame (o : Opts K) (e : Env K X) (s : St K X) :
    let s' := evalPhase o e s
    s'.iter = s.iter ∧ s'.x = s.x ∧ s'.statM = s.statM ∧ s'.mode = s.mode ∧ s'.counter = s.counter ∧
    s'.regPtr = s.regPtr ∧ s'.warmStart = s.warmStart ∧ s'.status = s.status ∧
    s'.stepNorm = s.stepNorm ∧ s'.est = s.est ∧ s'.prevTot = s.prevTot ∧
    (Evald o s.iter → s'.res = e.res s.x ∧ (o.needsObj = true → s'.cost = e.cost s.x)) ∧
    (¬ Evald o s.iter → s'.res = s.res) ∧
    ∃ l2, s'.log = s.log ++ l2 ∧ ∀ ev ∈ l2, ev = .store s.iter s.x ∨ ev = .evalRes s.x := by
  simp only [evalPhase]
  by_cases h : Evald o s.iter
  · have h' := h
    unfold Evald at h'
    rw [if_pos h']
    refine ⟨rfl, rfl, rfl, rfl, rfl, rfl, rfl, rfl, rfl, rfl, rfl, fun _ => ⟨rfl, fun hn => by simp [hn]⟩,
      fun hn => absurd h hn, _, List.append_assoc .., ?_⟩
    intro ev hev
    rw [List.mem_append] at hev
    rcases hev with hev | hev
    · split at hev <;> simp at hev
      exact Or.inl hev
    · simp at hev; exact Or.inr hev
  · have h' := h
    unfold Evald at h'
    rw [if_neg h']
    exact ⟨rfl, rfl, rfl, rfl, rfl, rfl, rfl, rfl, rfl, rfl, rfl, fun hn => absurd hn h, fun _ => rfl,
      [], by simp, by simp⟩

theorem timePhase_frame {s1 : St K X} (h : timePhase o e s = some s1) :
    s1.iter = s.iter ∧ s1.x = s.x ∧ s1.statM = s.statM ∧ s1.mode = s.mode ∧ s1.counter = s.counter ∧
    s1.regPtr = s.regPtr ∧ s1.warmStart = s.warmStart ∧ s1.status = s.status ∧
    s1.stepNorm = s.stepNorm ∧ s1.res = s.res ∧ s1.cost = s.cost ∧ s1.log = s.log ∧
    (o.timeoutMax > 0 → s1.timeTot = e.toc s.iter ∧ s1.prevTot = e.toc s.iter ∧
      (s.iter = 0 → s1.est = s.est) ∧
      (0 < s.iter → Sqp.updateEst o.heur s.est (e.toc s.iter - s.prevTot) = some s1.est)) := by
  unfold timePhase at h
  split_ifs at h with h1 h2
  · split at h
    · simp at h
    · next est' he =>
      simp only [Option.some.injEq] at h; subst h
      exact ⟨rfl, rfl, rfl, rfl, rfl, rfl, rfl, rfl, rfl, rfl, rfl, rfl,
        fun _ => ⟨rfl, rfl, by omega, fun _ => he⟩⟩
  · simp only [Option.some.injEq] at h; subst h
    exact ⟨rfl, rfl, rfl, rfl, rfl, rfl, rfl, rfl, rfl, rfl, rfl, rfl,
      fun _ => ⟨rfl, rfl, fun _ => rfl, by omega⟩⟩
  · simp only [Option.some.injEq] at h; subst h
    exact ⟨rfl, rfl, rfl, rfl, rfl, rfl, rfl, rfl, rfl, rfl, rfl, rfl, fun h => absurd h h1⟩

theorem mid_of_inv {s1 : St K X} (hi : Inv o e p x0 false s) (h : pre o e s = some s1) :
    Inv o e p x0 true s1 := by
  unfold pre at h
  obtain ⟨t1, t2, t3, t4, t5, t6, t7, t8, t9, t10, t11, t12, t13⟩ := timePhase_frame h
  obtain ⟨v1, v2, v3, v4, v5, v6, v7, v8, v9, v10, v11, v12, v13, l2, v14, v15⟩ :=
    evalPhase_frame o e s
  set s2 := evalPhase o e s
  have hit : s1.iter = s.iter := t1.trans v1
  have hx : s1.x = s.x := t2.trans v2
  have hle := hi.iterLe
  set L : List (Ev X) := (if s2.iter < s2.statM then
      [.stat s2.iter 0, .stat s2.iter 1, .stat s2.iter 2, .stat s2.iter 3] else []) ++
    (if o.logPi then [.stat s2.iter 11] else []) ++ (if o.logLam then [.stat s2.iter 12] else [])
    with hL
  have hlog : s1.log = s.log ++ (l2 ++ L) := by
    rw [t12]; show s2.log ++ L = _; rw [v14, List.append_assoc]
  have hplain : ∀ ev ∈ l2 ++ L, Plain ev ∧ (o.maxIter < (p.statM : Int) →
      InBounds p.statM (o.maxIter + 1).toNat o.maxIter.toNat ev) := by
    intro ev hev
    rw [List.mem_append] at hev
    rcases hev with hev | hev
    · rcases v15 ev hev with rfl | rfl
      · exact ⟨trivial, fun _ => by simp only [InBounds]; omega⟩
      · exact ⟨trivial, fun _ => trivial⟩
    · have : ∃ c, ev = .stat s2.iter c ∧ c < 13 := by
        rw [hL] at hev
        simp only [List.mem_append] at hev
        rcases hev with (hev | hev) | hev <;> split at hev <;> simp at hev
        · rcases hev with rfl | rfl | rfl | rfl <;> exact ⟨_, rfl, by omega⟩
        · exact ⟨_, hev, by omega⟩
        · exact ⟨_, hev, by omega⟩
      obtain ⟨c, rfl, hc⟩ := this
      refine ⟨trivial, fun hS => ⟨?_, hc⟩⟩
      rw [v1]
      omega
  have hcore : Core o e p.warmStart p.statM (o.maxIter + 1).toNat o.maxIter.toNat s1 :=
    core_plain hi.core _ s1 hlog (t4.trans v4) (t5.trans v5) (t6.trans v6) (t7.trans v7) hplain
  have hf := plain_frame (l := s.log) (fun ev hev => (hplain ev hev).1) o.mode
  refine ⟨by rw [hit]; exact hle, by rw [hx, hit]; exact hi.hx, by rw [t3]; exact v3.trans hi.statM,
    ?_, ?_, ?_, ?_, ?_, hcore, ?_, ?_, ?_, by simp, ?_, ?_, ?_⟩
  · intro _ hE; rw [hit] at hE; rw [t10, hx]; exact (v12 hE).1
  · intro _ hE hn; rw [hit] at hE; rw [t11, hx]; exact (v12 hE).2 hn
  · intro hE h0; rw [hit] at hE h0; rw [t10]; exact (v13 (hE rfl)).trans (hi.res0 (by simp) h0)
  · intro hE h0; rw [hit] at hE h0; rw [t10]; show ¬ s2.res.HasNan; rw [v13 (hE rfl)]
    exact hi.resN (by simp) h0
  · rw [hit, t9]; show _ → _ → s2.stepNorm = _; rw [v9]; exact hi.hstep
  · rw [hlog, hf.2.2.2.2, hit]; exact hi.hdirs
  · rw [t5]; show _ → _ → s2.counter < _; rw [v5]; exact hi.cnt
  · rw [t4, t8, hit]; show s2.mode = _ ∨ s2.mode = _ → _ ∧ s2.status = _ ∧ s2.mode = _
    rw [v4, v8]; exact hi.modes
  · intro hT _
    obtain ⟨w1, w2, -⟩ := t13 hT
    have : (statPhase o s2).iter = s.iter := v1
    rw [this] at w1 w2
    rw [hit]; exact ⟨w2, w1⟩
  · intro hT
    obtain ⟨w1, w2, w3, w4⟩ := t13 hT
    have e1 : (statPhase o s2).iter = s.iter := v1
    have e2 : (statPhase o s2).est = s.est := v10
    have e3 : (statPhase o s2).prevTot = s.prevTot := v11
    rw [e1, e2] at w3
    rw [e1, e2, e3] at w4
    have hest := hi.hest hT
    simp only [Bool.false_eq_true, if_false] at hest
    simp only [if_true]
    rw [hit]
    rcases Nat.eq_zero_or_pos s.iter with h0 | h0
    · rw [w3 h0, hest, h0]
    · have := w4 h0
      rw [hest] at this
      have := Sqp.updateEst_pred _ _ _ _ _ this
      rw [this, hi.prev hT rfl h0]
      obtain ⟨m, hm⟩ : ∃ m, s.iter = m + 1 := ⟨s.iter - 1, by omega⟩
      rw [hm, Sqp.durations_succ]; simp
  · rw [hit]; exact hi.steps

/-- how a call ends -/
inductive Ending (o : Opts K) (e : Env K X) (p : Persist K) (x0 : X) : St K X → Prop
  | term (s : St K X) (st : Status) : Inv o e p x0 true s → checkTermination o s = some st →
      Ending o e p x0 { s with status := st }
  | dir (s : St K X) : Inv o e p x0 true s → checkTermination o s = none →
      (searchDir o e s).1 ≠ .success → Ending o e p x0 (searchDir o e s).2
  | glob (s : St K X) : Inv o e p x0 true s → checkTermination o s = none →
      (searchDir o e s).1 = .success → e.glob s.iter s.x ≠ .success →
      Ending o e p x0
        { globPhase e (normPhase o e (searchDir o e s).2) with status := e.glob s.iter s.x }

theorem check_none (h : checkTermination o s = none) :
    ¬ s.res.HasNan ∧ (s.iter : Int) < o.maxIter ∧ ¬ s.res.Below o.toOpts := by
  unfold checkTermination Sqp.checkTermination at h
  split_ifs at h with h1 h2 h3 h4 h5 h6 h7
  rw [Sqp.hasNan_iff] at h1
  refine ⟨h1, by omega, ?_⟩
  simp only [Bool.and_eq_true, decide_eq_true_eq] at h3
  rintro ⟨a, b, c, d⟩
  exact h3 ⟨⟨⟨a, b⟩, c⟩, d⟩

/-- core invariant after step norms and globalization -/
theorem core_glob (hlt : (s.iter : Int) < o.maxIter)
    (hc : Core o e p.warmStart p.statM (o.maxIter + 1).toNat o.maxIter.toNat s)
    (hl : ∃ k, lastQp s.log = some (k, .success) ∧ k ≠ .feas) :
    Core o e p.warmStart p.statM (o.maxIter + 1).toNat o.maxIter.toNat
      (globPhase e (normPhase o e s)) ∧
    dirs (globPhase e (normPhase o e s)).log = dirs s.log := by
  set L : List (Ev X) := (if o.logPrimalStep then [.logPrimal s.iter] else []) ++
    (if o.logDualStep = true ∧ o.withAnderson = false then [.logDual s.iter] else []) with hL
  have hlog : (normPhase o e s).log = s.log ++ L := List.append_assoc ..
  have hplain : ∀ ev ∈ L, Plain ev ∧ (o.maxIter < (p.statM : Int) →
      InBounds p.statM (o.maxIter + 1).toNat o.maxIter.toNat ev) := by
    intro ev hev
    rw [hL, List.mem_append] at hev
    rcases hev with hev | hev <;> split at hev <;> simp at hev <;> subst hev
    · exact ⟨trivial, fun _ => by simp only [InBounds]; omega⟩
    · exact ⟨trivial, fun _ => by simp only [InBounds]; omega⟩
  have h1 := core_plain hc L (normPhase o e s) hlog rfl rfl rfl rfl hplain
  have hf := plain_frame (l := s.log) (fun ev hev => (hplain ev hev).1) o.mode
  refine ⟨⟨everywhere_snoc h1.ok ⟨fun _ => trivial, ?_⟩, ?_, ?_, h1.reg, h1.ws⟩, ?_⟩
  · rw [hlog, hf.2.2.1]; exact hl
  · simp only [globPhase, modeAfter_append]; rw [h1.mode]; rfl
  · simp only [globPhase, zeroSince_append]; exact h1.cnt
  · simp only [globPhase, dirs_append]; rw [hlog, hf.2.2.2.2]

theorem inv_next {s1 s2 : St K X} (hi : Inv o e p x0 true s1) (hc : checkTermination o s1 = none)
    (h : bodyQp o e s1 = .next s2) :
    Inv o e p x0 false s2 ∧ s2.iter = s1.iter + 1 := by
  obtain ⟨hn, hlt, hbel⟩ := check_none hc
  have hE : Evald o s1.iter := Or.inl (by omega)
  obtain ⟨a1, a2, a3, a4, a5⟩ := searchDir_step (e := e) hi.core hi.statM hi.hdirs hi.cnt
  unfold bodyQp at h
  simp only at h
  split at h
  · simp at h
  · next hr =>
    rw [not_not] at hr
    split at h
    · simp at h
    · next hg =>
      rw [not_not] at hg
      simp only [Body.next.injEq] at h
      generalize searchDir o e s1 = r at *
      obtain ⟨i1, i2, i3, i4, i5, i6, i7, i8, i9⟩ := id a2
      rw [hr] at a5
      simp only [reduceCtorEq, false_and, or_false, true_and] at a5
      obtain ⟨hmode, hcase⟩ := a5
      have hl : ∃ k, lastQp r.2.log = some (k, .success) ∧ k ≠ .feas := by
        rcases hcase with ⟨-, -, h⟩ | ⟨-, -, -, h⟩
        · exact ⟨_, h, by simp⟩
        · exact ⟨_, h, by simp⟩
      obtain ⟨c1, c2⟩ := core_glob (e := e) (by rw [i1]; exact hlt) a1 hl
      subst h
      refine ⟨⟨by simp only; omega, ?_, ?_, by simp, by simp, by simp, ?_, ?_, ?_, ?_, ?_, ?_, ?_,
        by simp, ?_, ?_⟩, rfl⟩
      · show e.globX r.2.iter r.2.x = _
        rw [i1, i2, hi.hx]; rfl
      · show r.2.statM = _; rw [i3]; exact hi.statM
      · intro _ _; show ¬ r.2.res.HasNan; rw [i4]; exact hn
      · intro _ hT
        show (if _ then e.stepNorm r.2.iter r.2.x else r.2.stepNorm) = _
        rw [if_pos (Or.inl hT), i1, i2, hi.hx]; rfl
      · refine core_plain c1 [.stat (s1.iter + 1) 10] _ rfl rfl rfl rfl rfl ?_
        intro ev hev
        simp at hev
        subst hev
        refine ⟨trivial, fun hS => ⟨?_, by simp [statN]⟩⟩
        omega
      · show dirs ((globPhase e (normPhase o e r.2)).log ++ [.stat (s1.iter + 1) 10]) = s1.iter + 1
        rw [dirs_append]; simp only; rw [c2, a3]
      · exact a4
      · intro hm
        have hm' : r.2.mode = .feas ∨ r.2.mode = .other := hm
        rcases hmode with h | h <;> rw [h] at hm' <;> simp at hm'
      · intro hT _ _
        show r.2.prevTot = _
        rw [i8, (hi.prevM hT rfl).1]; rfl
      · intro hT
        show r.2.est = _
        rw [i7, hi.hest hT]
        simp
      · intro j hj
        rcases Nat.lt_succ_iff_lt_or_eq.1 (show j < s1.iter + 1 from hj) with hj | hj
        · exact hi.steps j hj
        · subst hj
          rw [← hi.hx]
          refine ⟨hg, ?_, ?_, ?_⟩
          · rw [← hi.resE rfl hE]; exact hn
          · rw [← hi.resE rfl hE]; exact hbel
          · rcases hcase with ⟨-, h, -⟩ | ⟨-, h1, h2, -⟩
            · exact Or.inl h
            · exact Or.inr ⟨h1, h2⟩

theorem loop_ending (n : Nat) : ∀ s : St K X, Inv o e p x0 false s →
    ∀ s', loop o e n s = .ret s' → Ending o e p x0 s' := by
  induction n with
  | zero => intro s _ s' h; simp [loop] at h
  | succ n ih =>
    intro s hi s' h
    simp only [loop] at h
    rw [if_pos hi.iterLe] at h
    unfold body at h
    cases hp : timePhase o e (statPhase o (evalPhase o e s)) with
    | none => rw [hp] at h; simp at h
    | some s1 =>
      rw [hp] at h
      have hm := mid_of_inv hi (s1 := s1) hp
      simp only at h
      cases hc : checkTermination o s1 with
      | some st =>
        rw [hc] at h
        simp only [Out.ret.injEq] at h
        subst h
        exact .term s1 st hm hc
      | none =>
        rw [hc] at h
        simp only at h
        cases hb : bodyQp o e s1 with
        | abort => rw [hb] at h; simp at h
        | ret s2 =>
          rw [hb] at h
          simp only [Out.ret.injEq] at h
          subst h
          unfold bodyQp at hb
          simp only at hb
          split at hb
          · next hr =>
            simp only [Body.ret.injEq] at hb
            subst hb
            exact .dir s1 hm hc hr
          · next hr =>
            rw [not_not] at hr
            split at hb
            · next hg =>
              simp only [Body.ret.injEq] at hb
              subst hb
              exact .glob s1 hm hc hr hg
            · simp at hb
        | next s2 =>
          rw [hb] at h
          exact ih s2 (inv_next hm hc hb).1 s' h

theorem solve_ending {s' : St K X} (hM : 0 ≤ o.maxIter) (hp : p.regPtr = .nominal)
    (h : solve o e p x0 = .ret s') : Ending o e p x0 s' :=
  loop_ending _ _ (inv_start hM hp) _ h

theorem body_next_iter {s' : St K X} (h : body o e s = .next s') : s'.iter = s.iter + 1 := by
  unfold body at h
  split at h
  · simp at h
  · next s1 hp =>
    have h1 := (timePhase_frame hp).1
    have h2 := (evalPhase_frame o e s).1
    have h3 : s1.iter = s.iter := h1.trans h2
    split at h
    · simp at h
    · unfold bodyQp at h
      simp only at h
      split at h
      · simp at h
      · split at h
        · simp at h
        · simp only [Body.next.injEq] at h
          subst h
          simp only
          rw [h3]

/-- the loop stops within its fuel -/
theorem loop_running (n : Nat) (s : St K X) (hn : (o.maxIter + 1 - s.iter).toNat < n) :
    loop o e n s ≠ .running := by
  induction n generalizing s with
  | zero => omega
  | succ n ih =>
    unfold loop
    split
    · next hle =>
      split
      · simp
      · simp
      · next s' hb =>
        apply ih
        have := body_next_iter hb
        omega
    · simp

end
end Acados.WfqpLoop
