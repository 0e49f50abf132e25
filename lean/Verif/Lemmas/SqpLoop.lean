import Verif.Spec.Sqp
import Mathlib.Tactic.Ring
import Mathlib.Tactic.Linarith
import Mathlib.Tactic.SplitIfs
/-! Helper lemmas for the SQP loop. -/
namespace Acados.Sqp
variable {K X : Type*} [Field K] [LinearOrder K] [IsStrictOrderedRing K]

@[simp] theorem qps_append (a b : List (Ev K X)) : qps (a ++ b) = qps a ++ qps b := by simp [qps]
@[simp] theorem clocks_append (a b : List (Ev K X)) : clocks (a ++ b) = clocks a ++ clocks b := by
  simp [clocks]
@[simp] theorem stores_append (a b : List (Ev K X)) : stores (a ++ b) = stores a ++ stores b := by
  simp [stores]
@[simp] theorem globs_append (a b : List (Ev K X)) : globs (a ++ b) = globs a ++ globs b := by
  simp [globs]
@[simp] theorem qps_nil : qps ([] : List (Ev K X)) = [] := rfl
@[simp] theorem clocks_nil : clocks ([] : List (Ev K X)) = [] := rfl
@[simp] theorem stores_nil : stores ([] : List (Ev K X)) = [] := rfl
@[simp] theorem globs_nil : globs ([] : List (Ev K X)) = [] := rfl
@[simp] theorem qps_cons (a : Ev K X) (l) : qps (a :: l) = a.qp?.toList ++ qps l := by
  cases a <;> simp [qps, Ev.qp?, List.filterMap_cons]
@[simp] theorem clocks_cons (a : Ev K X) (l) : clocks (a :: l) = a.clock?.toList ++ clocks l := by
  cases a <;> simp [clocks, Ev.clock?, List.filterMap_cons]
@[simp] theorem stores_cons (a : Ev K X) (l) : stores (a :: l) = a.store?.toList ++ stores l := by
  cases a <;> simp [stores, Ev.store?, List.filterMap_cons]
@[simp] theorem globs_cons (a : Ev K X) (l) : globs (a :: l) = a.glob?.toList ++ globs l := by
  cases a <;> simp [globs, Ev.glob?, List.filterMap_cons]

@[simp] theorem qps_ite (c : Prop) [Decidable c] (a b : List (Ev K X)) :
    qps (if c then a else b) = if c then qps a else qps b := by split <;> rfl
@[simp] theorem clocks_ite (c : Prop) [Decidable c] (a b : List (Ev K X)) :
    clocks (if c then a else b) = if c then clocks a else clocks b := by split <;> rfl
@[simp] theorem stores_ite (c : Prop) [Decidable c] (a b : List (Ev K X)) :
    stores (if c then a else b) = if c then stores a else stores b := by split <;> rfl
@[simp] theorem globs_ite (c : Prop) [Decidable c] (a b : List (Ev K X)) :
    globs (if c then a else b) = if c then globs a else globs b := by split <;> rfl

theorem isnan_iff (a : Dbl) : a.isnan = true ↔ a = .nan := by cases a <;> simp [Dbl.isnan]

theorem hasNan_iff (r : Res) :
    (r.stat.isnan || r.eq.isnan || r.ineq.isnan || r.comp.isnan) = true ↔ r.HasNan := by
  simp [Res.HasNan, isnan_iff, or_assoc]

/-- was the iterate evaluated in this iteration? -/
def Evald (o : Opts K) (n : Nat) : Prop := (n : Int) ≠ o.maxIter ∨ o.evalResAtMaxIter = true

instance (o : Opts K) (n : Nat) : Decidable (Evald o n) := by unfold Evald; infer_instance

def levels (o : Opts K) (p : Persist K) : Nat → List Int
  | 0 => []
  | n + 1 => (if o.warmStartFirst then p.mem.warmStart else 0) :: List.replicate n o.qpWarmStart

theorem levels_succ (o : Opts K) (p : Persist K) (n : Nat) (h : 0 < n) :
    levels o p (n + 1) = levels o p n ++ [o.qpWarmStart] := by
  obtain ⟨m, rfl⟩ : ∃ m, n = m + 1 := ⟨n - 1, by omega⟩
  simp [levels, List.replicate_succ']

theorem durations_succ (toc : Nat → K) (n : Nat) :
    durations toc (n + 1) = durations toc n ++ [toc (n + 1) - toc n] := by
  simp [durations, List.range_succ]

theorem updateEst_pred (h : Heur) (m0 d e' : K) (ds : List K)
    (hu : updateEst h (predicted h m0 ds) d = some e') : e' = predicted h m0 (ds ++ [d]) := by
  cases h <;> simp only [updateEst, Option.some.injEq, reduceCtorEq] at hu <;> subst hu <;>
    simp [predicted]
  · split
    · next h => exact (max_eq_right (le_of_lt h)).symm
    · next h => exact (max_eq_left (not_lt.1 h)).symm
  · split
    · next h => exact (max_eq_right (le_of_lt h)).symm
    · next h => exact (max_eq_left (not_lt.1 h)).symm
  · ring

/-- invariant at the head of the loop -/
structure Inv (o : Opts K) (e : Env K X) (p : Persist K) (x0 : X) (s : St K X) : Prop where
  iterLe : (s.iter : Int) ≤ o.maxIter
  hx : s.x = traj e x0 s.iter
  res0 : s.iter = 0 → s.res = p.res
  resN : 0 < s.iter → ¬ s.res.HasNan
  hstep : 0 < s.iter → o.tolMinStep > (0 : Dbl) →
    s.stepNorm = e.stepNorm (s.iter - 1) (traj e x0 (s.iter - 1))
  statM : s.mem.statM = p.mem.statM
  statN : s.mem.statN = p.mem.statN
  ws : s.mem.warmStart = if s.iter = 0 then p.mem.warmStart else o.qpWarmStart
  hqps : qps s.log = levels o p s.iter
  hclocks : clocks s.log = if o.timeoutMax > 0 then (List.range s.iter).map e.toc else []
  prev : o.timeoutMax > 0 → 0 < s.iter → s.prevTot = e.toc (s.iter - 1)
  hest : o.timeoutMax > 0 → s.est = predicted o.heur p.est (durations e.toc (s.iter - 1))
  est0 : ¬ o.timeoutMax > 0 → s.est = predicted o.heur p.est []
  passed : o.timeoutMax > 0 → ∀ j < s.iter,
    e.toc j + predicted o.heur p.est (durations e.toc j) < o.timeoutMax
  hstores : stores s.log = if o.storeIterates then
    (List.range s.iter).map (fun k => (k, traj e x0 k)) else []
  bounds : ∀ ev ∈ s.log, EvInBounds p.mem.statM (if o.extQpRes then 11 else 7)
    (o.maxIter + 1).toNat o.maxIter.toNat ev
  gl : globs s.log = List.replicate s.iter .success
  cont : ∀ j < s.iter, NoStop o e x0 j
  qpok : ∀ j < s.iter, QpOk (e.qp j (traj e x0 j)) ∧ e.glob j (traj e x0 j) = .success

/-- what is known when the termination check runs -/
structure Mid (o : Opts K) (e : Env K X) (p : Persist K) (x0 : X) (s : St K X) : Prop where
  iterLe : (s.iter : Int) ≤ o.maxIter
  hx : s.x = traj e x0 s.iter
  resE : Evald o s.iter → s.res = e.res s.x
  res0 : ¬ Evald o s.iter → s.iter = 0 → s.res = p.res
  resN : ¬ Evald o s.iter → 0 < s.iter → ¬ s.res.HasNan
  hcost : Evald o s.iter → o.needsObj = true → s.cost = e.cost s.x
  hstep : 0 < s.iter → o.tolMinStep > (0 : Dbl) →
    s.stepNorm = e.stepNorm (s.iter - 1) (traj e x0 (s.iter - 1))
  statM : s.mem.statM = p.mem.statM
  statN : s.mem.statN = p.mem.statN
  ws : s.mem.warmStart = if s.iter = 0 then p.mem.warmStart else o.qpWarmStart
  hqps : qps s.log = levels o p s.iter
  hclocks : clocks s.log = if o.timeoutMax > 0 then (List.range (s.iter + 1)).map e.toc else []
  prev : o.timeoutMax > 0 → s.prevTot = e.toc s.iter
  tot : o.timeoutMax > 0 → s.timeTot = e.toc s.iter
  hest : o.timeoutMax > 0 → s.est = predicted o.heur p.est (durations e.toc s.iter)
  est0 : ¬ o.timeoutMax > 0 → s.est = predicted o.heur p.est []
  passed : o.timeoutMax > 0 → ∀ j < s.iter,
    e.toc j + predicted o.heur p.est (durations e.toc j) < o.timeoutMax
  hstores : stores s.log = if o.storeIterates then
    (List.range s.iter).map (fun k => (k, traj e x0 k)) ++
      (if Evald o s.iter then [(s.iter, traj e x0 s.iter)] else []) else []
  bounds : ∀ ev ∈ s.log, EvInBounds p.mem.statM (if o.extQpRes then 11 else 7)
    (o.maxIter + 1).toNat o.maxIter.toNat ev
  gl : globs s.log = List.replicate s.iter .success
  cont : ∀ j < s.iter, NoStop o e x0 j
  qpok : ∀ j < s.iter, QpOk (e.qp j (traj e x0 j)) ∧ e.glob j (traj e x0 j) = .success

theorem inv_start (o : Opts K) (e : Env K X) (p : Persist K) (x0 : X) (h : 0 ≤ o.maxIter) :
    Inv o e p x0 (start o p x0) := by
  have hp : (if o.heur ≠ Heur.maxOverall then (0 : K) else p.est) = predicted o.heur p.est [] := by
    cases o.heur <;> simp [predicted]
  constructor <;> simp [start, h, traj, levels, durations]
  · intro _; simpa using hp
  · intro _; simpa using hp

/-- the first part of the loop body -/
def pre (o : Opts K) (e : Env K X) (s : St K X) : Option (St K X) :=
  timePhase o e (statPhase (evalPhase o e s))

section
variable (o : Opts K) (e : Env K X) (p : Persist K) (x0 : X) (s s1 : St K X)

@[simp] theorem evalPhase_iter : (evalPhase o e s).iter = s.iter := by unfold evalPhase; split <;> rfl
@[simp] theorem evalPhase_x : (evalPhase o e s).x = s.x := by unfold evalPhase; split <;> rfl
@[simp] theorem evalPhase_mem : (evalPhase o e s).mem = s.mem := by unfold evalPhase; split <;> rfl
@[simp] theorem evalPhase_stepNorm : (evalPhase o e s).stepNorm = s.stepNorm := by
  unfold evalPhase; split <;> rfl
@[simp] theorem evalPhase_est : (evalPhase o e s).est = s.est := by unfold evalPhase; split <;> rfl
@[simp] theorem evalPhase_prev : (evalPhase o e s).prevTot = s.prevTot := by
  unfold evalPhase; split <;> rfl
theorem evalPhase_log : (evalPhase o e s).log = s.log ++ if Evald o s.iter then
    (if o.storeIterates then [.store s.iter s.x] else []) ++ [.evalRes s.x] else [] := by
  unfold evalPhase
  by_cases h : Evald o s.iter
  · have h' := h
    unfold Evald at h'
    rw [if_pos h', if_pos h]; simp
  · have h' := h
    unfold Evald at h'
    rw [if_neg h', if_neg h]; simp

@[simp] theorem statPhase_iter : (statPhase s).iter = s.iter := by unfold statPhase; split <;> rfl
@[simp] theorem statPhase_x : (statPhase s).x = s.x := by unfold statPhase; split <;> rfl
@[simp] theorem statPhase_mem : (statPhase s).mem = s.mem := by unfold statPhase; split <;> rfl
@[simp] theorem statPhase_res : (statPhase s).res = s.res := by unfold statPhase; split <;> rfl
@[simp] theorem statPhase_cost : (statPhase s).cost = s.cost := by unfold statPhase; split <;> rfl
@[simp] theorem statPhase_stepNorm : (statPhase s).stepNorm = s.stepNorm := by
  unfold statPhase; split <;> rfl
@[simp] theorem statPhase_est : (statPhase s).est = s.est := by unfold statPhase; split <;> rfl
@[simp] theorem statPhase_prev : (statPhase s).prevTot = s.prevTot := by
  unfold statPhase; split <;> rfl
theorem statPhase_log : (statPhase s).log = s.log ++ if s.iter < s.mem.statM then
    [.stat s.iter 0, .stat s.iter 1, .stat s.iter 2, .stat s.iter 3] else [] := by
  unfold statPhase; split <;> simp

/-- the time phase changes only the time fields -/
theorem timePhase_frame (h : timePhase o e s = some s1) :
    s1.iter = s.iter ∧ s1.x = s.x ∧ s1.mem = s.mem ∧ s1.res = s.res ∧ s1.cost = s.cost ∧
    s1.stepNorm = s.stepNorm ∧
    s1.log = s.log ++ (if o.timeoutMax > 0 then [.clock (e.toc s.iter)] else []) := by
  unfold timePhase at h
  split_ifs at h with h1 h2
  · split at h
    · simp at h
    · simp only [Option.some.injEq] at h; subst h; simp [h1]
  · simp only [Option.some.injEq] at h; subst h; simp [h1]
  · simp only [Option.some.injEq] at h; subst h; simp [h1]

theorem timePhase_times (h : timePhase o e s = some s1) (ht : o.timeoutMax > 0) :
    s1.timeTot = e.toc s.iter ∧ s1.prevTot = e.toc s.iter ∧
    (s.iter = 0 → s1.est = s.est) ∧
    (0 < s.iter → updateEst o.heur s.est (e.toc s.iter - s.prevTot) = some s1.est) := by
  unfold timePhase at h
  rw [if_pos ht] at h
  split_ifs at h with h2
  · split at h
    · simp at h
    · next est' he =>
      simp only [Option.some.injEq] at h; subst h
      refine ⟨rfl, rfl, by omega, fun _ => he⟩
  · simp only [Option.some.injEq] at h; subst h
    exact ⟨rfl, rfl, fun _ => rfl, by omega⟩

theorem timePhase_est0 (h : timePhase o e s = some s1) (ht : ¬ o.timeoutMax > 0) :
    s1.est = s.est := by
  unfold timePhase at h
  rw [if_neg ht] at h
  simp only [Option.some.injEq] at h; subst h; rfl

variable {o e p x0 s s1}

theorem mid_of_inv (hi : Inv o e p x0 s) (h : pre o e s = some s1) : Mid o e p x0 s1 := by
  unfold pre at h
  obtain ⟨h1, h2, h3, h4, h5, h6, h7⟩ := timePhase_frame _ _ _ _ h
  simp only [statPhase_iter, statPhase_x, statPhase_mem, statPhase_res, statPhase_cost,
    statPhase_stepNorm, evalPhase_iter, evalPhase_x, evalPhase_mem, evalPhase_stepNorm,
    statPhase_log, evalPhase_log] at h1 h2 h3 h4 h5 h6 h7
  have ht := timePhase_times _ _ _ _ h
  have ht0 := timePhase_est0 _ _ _ _ h
  simp only [statPhase_iter, statPhase_est, statPhase_prev, evalPhase_iter, evalPhase_est,
    evalPhase_prev] at ht ht0
  have hxs := hi.hx
  constructor
  · rw [h1]; exact hi.iterLe
  · rw [h1, h2]; exact hi.hx
  · rw [h1, h2, h4]; intro hE; unfold Evald at hE; unfold evalPhase; rw [if_pos hE]
  · rw [h1, h4]; intro hE h0; unfold Evald at hE; unfold evalPhase; rw [if_neg hE]; exact hi.res0 h0
  · rw [h1, h4]; intro hE h0; unfold Evald at hE; unfold evalPhase; rw [if_neg hE]; exact hi.resN h0
  · rw [h1, h2, h5]; intro hE hn; unfold Evald at hE; unfold evalPhase; rw [if_pos hE]; simp [hn]
  · rw [h1, h6]; exact hi.hstep
  · rw [h3]; exact hi.statM
  · rw [h3]; exact hi.statN
  · rw [h3, h1]; exact hi.ws
  · rw [h7, h1]
    simp only [qps_append, hi.hqps]
    split_ifs <;> simp [Ev.qp?]
  · rw [h7, h1]
    simp only [clocks_append, hi.hclocks]
    split_ifs <;> simp [Ev.clock?, List.range_succ]
  · intro hT; rw [h1]; exact (ht hT).2.1
  · intro hT; rw [h1]; exact (ht hT).1
  · intro hT
    rw [h1]
    rcases Nat.eq_zero_or_pos s.iter with h0 | h0
    · rw [(ht hT).2.2.1 h0, hi.hest hT, h0]
    · have := (ht hT).2.2.2 h0
      rw [hi.hest hT] at this
      have := updateEst_pred _ _ _ _ _ this
      rw [this, hi.prev hT h0]
      obtain ⟨m, hm⟩ : ∃ m, s.iter = m + 1 := ⟨s.iter - 1, by omega⟩
      rw [hm, durations_succ]; simp
  · intro hT; rw [ht0 hT]; exact hi.est0 hT
  · rw [h1]; exact hi.passed
  · rw [h7, h1]
    simp only [stores_append, hi.hstores]
    split_ifs <;> simp [Ev.store?, hxs]
  · rw [h7]
    have hb := hi.bounds
    have hm := hi.statM
    have hle := hi.iterLe
    intro ev hev
    simp only [List.mem_append] at hev
    rcases hev with (((hev | hev) | hev) | hev)
    · exact hb ev hev
    · split_ifs at hev <;> simp at hev
      · rcases hev with rfl | rfl
        · simp only [EvInBounds]; omega
        · simp only [EvInBounds]
      · subst hev; simp only [EvInBounds]
    · split_ifs at hev with hc <;> simp at hev
      rcases hev with rfl | rfl | rfl | rfl <;>
        simp only [EvInBounds, ← hm] <;> refine ⟨hc, ?_⟩ <;> split <;> omega
    · split_ifs at hev <;> simp at hev
      subst hev; simp only [EvInBounds]
  · rw [h7, h1]
    simp only [globs_append, hi.gl]
    split_ifs <;> simp [Ev.glob?]
  · rw [h1]; exact hi.cont
  · rw [h1]; exact hi.qpok

theorem check_none (h : checkTermination o s.iter s.res s.stepNorm s.cost s.timeTot s.est = none) :
    ¬ s.res.HasNan ∧ (s.iter : Int) < o.maxIter ∧
    (o.timeoutMax > 0 → s.timeTot + s.est < o.timeoutMax) := by
  unfold checkTermination at h
  split_ifs at h with h1 h2 h3 h4 h5 h6 h7
  rw [hasNan_iff] at h1
  exact ⟨h1, by omega, fun ht => not_le.1 fun hle => h7 ⟨ht, hle⟩⟩

theorem noStop_of_check (hm : Mid o e p x0 s)
    (h : checkTermination o s.iter s.res s.stepNorm s.cost s.timeTot s.est = none) :
    NoStop o e x0 s.iter := by
  obtain ⟨hn, hlt, -⟩ := check_none h
  have hE : Evald o s.iter := Or.inl (by omega)
  unfold checkTermination at h
  split_ifs at h with h1 h2 h3 h4 h5 h6 h7
  rw [hm.resE hE] at h3 hn
  unfold NoStop
  rw [← hm.hx]
  refine ⟨hn, ?_, ?_, ?_⟩
  · rintro ⟨a, b, c, d⟩
    simp [a, b, c, d] at h3
  · intro ht h0 hlt'
    rw [← hm.hstep h0 ht] at hlt'
    simp [ht, h0, hlt'] at h4
  · intro hno
    rw [← hm.hcost hE hno]
    exact h5

/-- what is known after the QP was solved -/
theorem qp_bounds (hm : Mid o e p x0 s) (hlt : (s.iter : Int) < o.maxIter) :
    ∀ ev ∈ (qpPhase o s).log, EvInBounds p.mem.statM (if o.extQpRes then 11 else 7)
      (o.maxIter + 1).toNat o.maxIter.toNat ev := by
  have hb := hm.bounds
  have hM := hm.statM
  intro ev hev
  unfold qpPhase at hev
  simp only [List.mem_append] at hev
  rcases hev with (((hev | hev) | hev) | hev)
  · exact hb ev hev
  · simp at hev; subst hev; simp only [EvInBounds]
  · split_ifs at hev with hc <;> simp at hev
    rcases hev with rfl | rfl <;> simp only [EvInBounds, ← hM] <;> refine ⟨hc, ?_⟩ <;> split <;> omega
  · split_ifs at hev with hc <;> simp at hev
    rcases hev with rfl | rfl | rfl | rfl <;> simp only [EvInBounds, ← hM, hc.1] <;>
      refine ⟨hc.2, ?_⟩ <;> simp

theorem norm_bounds (hm : Mid o e p x0 s) (hlt : (s.iter : Int) < o.maxIter) :
    ∀ ev ∈ (globPhase e (normPhase o e (qpPhase o s))).log,
      EvInBounds p.mem.statM (if o.extQpRes then 11 else 7)
      (o.maxIter + 1).toNat o.maxIter.toNat ev := by
  have hb := qp_bounds hm hlt
  intro ev hev
  unfold globPhase normPhase at hev
  simp only [List.mem_append] at hev
  rcases hev with (((hev | hev) | hev) | hev)
  · exact hb ev hev
  · split_ifs at hev with hc <;> simp at hev
    subst hev; simp only [EvInBounds, qpPhase]; omega
  · split_ifs at hev with hc <;> simp at hev
    subst hev; simp only [EvInBounds, qpPhase]; omega
  · simp at hev; subst hev; simp only [EvInBounds]

theorem qpLevel_eq (hm : Mid o e p x0 s) :
    qps s.log ++ [qpLevel o s] = levels o p (s.iter + 1) := by
  rw [hm.hqps]
  unfold qpLevel
  have hw := hm.ws
  rcases Nat.eq_zero_or_pos s.iter with h0 | h0
  · rw [if_pos h0] at hw
    rw [h0, hw]
    cases hf : o.warmStartFirst <;> simp [levels, hf]
  · rw [levels_succ _ _ _ h0, if_neg (by omega), hw, if_neg (by omega)]

theorem qps_qpPhase (hm : Mid o e p x0 s) :
    qps (qpPhase o s).log = levels o p (s.iter + 1) := by
  rw [← qpLevel_eq hm]
  unfold qpPhase
  simp only [qps_append]
  split_ifs <;> simp [Ev.qp?]

theorem inv_of_mid (hm : Mid o e p x0 s)
    (hc : checkTermination o s.iter s.res s.stepNorm s.cost s.timeTot s.est = none)
    (hn : bodyQp o e s = .next s1) : Inv o e p x0 s1 := by
  obtain ⟨hnan, hlt, htm⟩ := check_none hc
  have hqp := qps_qpPhase hm
  have hb := norm_bounds hm hlt
  have hx := hm.hx
  unfold bodyQp at hn
  split_ifs at hn with h1 h2
  simp only [Body.next.injEq] at hn
  have hE : Evald o s.iter := Or.inl (by omega)
  subst hn
  constructor
  · simp; omega
  · simp [alphaPhase, globPhase, normPhase, qpPhase, traj, hx]
  · simp
  · simpa [alphaPhase, globPhase, normPhase, qpPhase] using hnan
  · intro _ ht
    simp [alphaPhase, globPhase, normPhase, qpPhase, ht, hx]
  · simpa [alphaPhase, globPhase, normPhase, qpPhase] using hm.statM
  · simpa [alphaPhase, globPhase, normPhase, qpPhase] using hm.statN
  · have := hm.ws
    simp only [alphaPhase, globPhase, normPhase, qpPhase, this]
    split_ifs <;> simp_all
  · rw [← hqp]
    simp [alphaPhase, globPhase, normPhase, Ev.qp?]
  · have := hm.hclocks
    simp [alphaPhase, globPhase, normPhase, qpPhase, Ev.clock?, this]
  · intro ht _
    simpa [alphaPhase, globPhase, normPhase, qpPhase] using hm.prev ht
  · intro ht
    simpa [alphaPhase, globPhase, normPhase, qpPhase] using hm.hest ht
  · intro ht
    simpa [alphaPhase, globPhase, normPhase, qpPhase] using hm.est0 ht
  · intro ht j hj
    simp at hj
    rcases Nat.lt_succ_iff_lt_or_eq.1 (Nat.lt_succ_of_le (Nat.lt_succ_iff.1 hj)) with hj | hj
    · exact hm.passed ht j hj
    · have := htm ht
      rw [hm.tot ht, hm.hest ht] at this
      rw [hj]; exact this
  · have := hm.hstores
    simp [alphaPhase, globPhase, normPhase, qpPhase, Ev.store?, this, hE, List.range_succ]
  · intro ev hev
    simp only [alphaPhase, List.mem_append] at hev
    rcases hev with hev | hev
    · exact hb ev hev
    · have hM := hm.statM
      simp only [globPhase, normPhase, qpPhase] at hev
      by_cases hc : s.iter + 1 < s.mem.statM
      · simp only [hc, if_true, List.mem_singleton] at hev
        subst hev
        simp only [EvInBounds, ← hM]
        refine ⟨hc, ?_⟩
        split <;> omega
      · simp [hc] at hev
  · have := hm.gl
    have hg : e.glob s.iter s.x = .success := not_not.1 h2
    simp [alphaPhase, globPhase, normPhase, qpPhase, Ev.glob?, this, hg, List.replicate_succ']
  · intro j hj
    rcases Nat.lt_succ_iff_lt_or_eq.1 hj with hj | hj
    · exact hm.cont j hj
    · subst hj
      exact noStop_of_check hm hc
  · intro j hj
    rcases Nat.lt_succ_iff_lt_or_eq.1 hj with hj | hj
    · exact hm.qpok j hj
    · subst hj
      rw [← hx]
      refine ⟨?_, not_not.1 h2⟩
      unfold QpOk
      by_contra hq
      exact h1 (not_or.1 hq)

/-- the three ways a call can end (for nonnegative `max_iter`) -/
inductive Ending (o : Opts K) (e : Env K X) (p : Persist K) (x0 : X) :
    Status → St K X → Prop where
  | check (st : Status) (s : St K X) (hm : Mid o e p x0 s)
      (hc : checkTermination o s.iter s.res s.stepNorm s.cost s.timeTot s.est = some st) :
      Ending o e p x0 st s
  | qpFail (s : St K X) (hm : Mid o e p x0 s)
      (hc : checkTermination o s.iter s.res s.stepNorm s.cost s.timeTot s.est = none)
      (h1 : e.qp s.iter s.x ≠ .success) (h2 : e.qp s.iter s.x ≠ .maxIter) :
      Ending o e p x0 .qpFailure { qpPhase o s with iter := s.iter + 1 }
  | globFail (s : St K X) (hm : Mid o e p x0 s)
      (hc : checkTermination o s.iter s.res s.stepNorm s.cost s.timeTot s.est = none)
      (hq : QpOk (e.qp s.iter s.x))
      (h1 : e.glob s.iter s.x ≠ .success) :
      Ending o e p x0 (e.glob s.iter s.x) (globPhase e (normPhase o e (qpPhase o s)))

theorem body_ret {st : Status} (hi : Inv o e p x0 s) (h : body o e s = .ret st s1) :
    Ending o e p x0 st s1 := by
  unfold body at h
  split at h
  · simp at h
  · next s2 h2 =>
    have hm := mid_of_inv hi h2
    split at h
    · next st' hc =>
      simp only [Body.ret.injEq] at h
      obtain ⟨rfl, rfl⟩ := h
      exact .check _ _ hm hc
    · next hc =>
      unfold bodyQp at h
      split_ifs at h with h3 h4
      · simp only [Body.ret.injEq] at h
        obtain ⟨rfl, rfl⟩ := h
        exact .qpFail _ hm hc h3.1 h3.2
      · simp only [Body.ret.injEq] at h
        obtain ⟨rfl, rfl⟩ := h
        refine .globFail _ hm hc ?_ h4
        unfold QpOk
        by_contra hq
        exact h3 (not_or.1 hq)

theorem body_next (hi : Inv o e p x0 s) (h : body o e s = .next s1) : Inv o e p x0 s1 := by
  unfold body at h
  split at h
  · simp at h
  · next s2 h2 =>
    have hm := mid_of_inv hi h2
    split at h
    · simp at h
    · next hc => exact inv_of_mid hm hc h

theorem body_next_iter (h : body o e s = .next s1) : s1.iter = s.iter + 1 := by
  unfold body at h
  split at h
  · simp at h
  · next s2 h2 =>
    obtain ⟨h1, -⟩ := timePhase_frame _ _ _ _ h2
    split at h
    · simp at h
    · unfold bodyQp at h
      split_ifs at h
      simp only [Body.next.injEq] at h
      subst h
      simpa using h1

theorem loop_ending {st : Status} (n : Nat) (hi : Inv o e p x0 s)
    (h : loop o e n s = .ret st s1) : Ending o e p x0 st s1 := by
  induction n generalizing s with
  | zero => simp [loop] at h
  | succ n ih =>
    unfold loop at h
    rw [if_pos hi.iterLe] at h
    split at h
    · simp at h
    · next st' s' hb =>
      simp only [Out.ret.injEq] at h
      obtain ⟨rfl, rfl⟩ := h
      exact body_ret hi hb
    · next s' hb => exact ih (body_next hi hb) h

theorem solve_ending {st : Status} (hM : 0 ≤ o.maxIter) (h : solve o e p x0 = .ret st s1) :
    Ending o e p x0 st s1 :=
  loop_ending _ (inv_start o e p x0 hM) h

theorem loop_running (n : Nat) (hn : (o.maxIter + 1 - s.iter).toNat < n) :
    loop o e n s ≠ .running := by
  induction n generalizing s with
  | zero => omega
  | succ n ih =>
    unfold loop
    split
    · next hle =>
      split
      · simp
      · simp
      · next s' hb =>
        apply ih
        have := body_next_iter hb
        omega
    · simp

end
end Acados.Sqp
