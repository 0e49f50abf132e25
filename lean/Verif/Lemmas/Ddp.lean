import Verif.Spec.Ddp
import Verif.Lemmas.Merit
import Mathlib.Tactic.Ring
/-! Helper lemmas for the DDP forward sweep and loop. -/
namespace Acados.Ddp
open Finset
variable {K : Type*} [Field K] [LinearOrder K] [IsStrictOrderedRing K]

section
variable (d : Dims) (f : Dyn K) (s : Step K) (same : Bool) (alpha : K) (out : Nat → Nat → K)

/-- the feedback law -/
def fbk (dest : Nat → Nat → K) (n j : Nat) : K :=
  (∑ l ∈ range (d.nx n), s.gainK n j l * (dest n (d.nu n + l) - src same out dest n (d.nu n + l)))
    + alpha * s.gaink n j

theorem sweepStep_next (dest : Nat → Nat → K) (n j : Nat) (hj : j < d.nx (n + 1)) :
    sweepStep d f s same alpha out dest n (n + 1) (d.nu (n + 1) + j) =
      f n (xOf d (sweepStep d f s same alpha out dest n) n)
        (uOf d (sweepStep d f s same alpha out dest n) n) j := by
  have hx : xOf d (sweepStep d f s same alpha out dest n) n = unpack (d.nu n) (d.nx n)
      (blit 0 (d.nu n) (fun j => src same out dest n j + fbk d s same alpha out dest n j)
        (dest n)) := by
    funext l
    simp only [xOf, unpack, sweepStep, setAt, Nat.ne_of_lt (Nat.lt_succ_self n), if_false, if_true,
      fbk]
  have hu : uOf d (sweepStep d f s same alpha out dest n) n = unpack 0 (d.nu n)
      (blit 0 (d.nu n) (fun j => src same out dest n j + fbk d s same alpha out dest n j)
        (dest n)) := by
    funext l
    simp only [uOf, unpack, sweepStep, setAt, Nat.ne_of_lt (Nat.lt_succ_self n), if_false, if_true,
      fbk, Nat.zero_add]
  rw [hx, hu]
  have h1 : d.nu (n + 1) ≤ d.nu (n + 1) + j ∧ d.nu (n + 1) + j < d.nu (n + 1) + d.nx (n + 1) := by
    omega
  simp only [sweepStep, setAt, if_true, blit, h1, and_self, Nat.add_sub_cancel_left, dynFun, fbk]
  exact sub_add_cancel _ _

theorem sweepStep_input (dest : Nat → Nat → K) (n j : Nat) (hj : j < d.nu n) :
    sweepStep d f s same alpha out dest n n j =
      src same out dest n j + fbk d s same alpha out dest n j := by
  simp [sweepStep, setAt, blit, hj, fbk]

theorem sweepStep_state (dest : Nat → Nat → K) (n j : Nat) (hj : d.nu n ≤ j) :
    sweepStep d f s same alpha out dest n n j = dest n j := by
  have : ¬ j < d.nu n := by omega
  simp [sweepStep, setAt, blit, this]

theorem sweepStep_other (dest : Nat → Nat → K) (n k : Nat) (h1 : k ≠ n) (h2 : k ≠ n + 1) :
    sweepStep d f s same alpha out dest n k = dest k := by
  simp [sweepStep, setAt, h1, h2]

theorem sweepStep_next_out (dest : Nat → Nat → K) (n j : Nat)
    (h : j < d.nu (n + 1) ∨ d.nu (n + 1) + d.nx (n + 1) ≤ j) :
    sweepStep d f s same alpha out dest n (n + 1) j = dest (n + 1) j := by
  have : ¬ (d.nu (n + 1) ≤ j ∧ j < d.nu (n + 1) + d.nx (n + 1)) := by omega
  simp only [sweepStep, setAt, blit, if_true, this, if_false, Nat.succ_ne_self]

/-- state of the sweep after `n` stages -/
structure SweepInv (dest : Nat → Nat → K) (n : Nat) (ux : Nat → Nat → K) : Prop where
  sim : ∀ i < n, ∀ j < d.nx (i + 1), xOf d ux (i + 1) j = f i (xOf d ux i) (uOf d ux i) j
  later : ∀ k, n < k → ux k = dest k
  cur : ∀ j, j < d.nu n → ux n j = dest n j
  x0 : ∀ j < d.nx 0, ux 0 (d.nu 0 + j) = out 0 (d.nu 0 + j) + alpha * s.ux 0 (d.nu 0 + j)
  slack : ∀ k j, d.nu k + d.nx k ≤ j → ux k j = dest k j
  law : same = false → ∀ i < n, ∀ j < d.nu i, ux i j = out i j +
    ((∑ l ∈ range (d.nx i), s.gainK i j l * (ux i (d.nu i + l) - out i (d.nu i + l)))
      + alpha * s.gaink i j)
  lawS : same = true → ∀ i < n, ∀ j < d.nu i, ux i j = dest i j + alpha * s.gaink i j

theorem sweep_zero (dest : Nat → Nat → K) :
    SweepInv d f s same alpha out dest 0 (setAt 0 (blit (d.nu 0) (d.nx 0)
      (fun j => out 0 (d.nu 0 + j) + alpha * s.ux 0 (d.nu 0 + j)) (dest 0)) dest) := by
  refine ⟨fun i hi => absurd hi (by omega), fun k hk => ?_, fun j hj => ?_, fun j hj => ?_,
    fun k j hj => ?_, fun _ i hi => absurd hi (by omega), fun _ i hi => absurd hi (by omega)⟩
  · simp [setAt, Nat.ne_of_gt hk]
  · have : ¬ (d.nu 0 ≤ j ∧ j < d.nu 0 + d.nx 0) := by omega
    simp [setAt, blit, this]
  · have : d.nu 0 ≤ d.nu 0 + j ∧ d.nu 0 + j < d.nu 0 + d.nx 0 := by omega
    simp [setAt, blit, hj]
  · by_cases hk : k = 0
    · subst hk
      have : ¬ (d.nu 0 ≤ j ∧ j < d.nu 0 + d.nx 0) := by omega
      simp [setAt, blit, this]
    · simp [setAt, hk]

theorem sweep_succ (dest ux : Nat → Nat → K) (n : Nat)
    (h : SweepInv d f s same alpha out dest n ux) :
    SweepInv d f s same alpha out dest (n + 1) (sweepStep d f s same alpha out ux n) := by
  set ux' := sweepStep d f s same alpha out ux n with hux
  have hlt : ∀ i, i < n → ux' i = ux i := fun i hi =>
    sweepStep_other d f s same alpha out ux n i (by omega) (by omega)
  have hst : ∀ l, ux' n (d.nu n + l) = ux n (d.nu n + l) := fun l =>
    sweepStep_state d f s same alpha out ux n _ (by omega)
  refine ⟨fun i hi j hj => ?_, fun k hk => ?_, fun j hj => ?_, fun j hj => ?_, fun k j hj => ?_,
    fun hs i hi j hj => ?_, fun hs i hi j hj => ?_⟩
  · rcases Nat.lt_succ_iff_lt_or_eq.1 hi with hi' | rfl
    · have e1 : xOf d ux' i = xOf d ux i := by funext l; simp [xOf, hlt i hi']
      have e2 : uOf d ux' i = uOf d ux i := by funext l; simp [uOf, hlt i hi']
      have e3 : xOf d ux' (i + 1) j = xOf d ux (i + 1) j := by
        unfold xOf
        by_cases hn : i + 1 = n
        · subst hn; simp only [hst]
        · rw [hlt (i + 1) (by omega)]
      rw [e1, e2, e3]
      exact h.sim i hi' j hj
    · rw [show xOf d ux' (i + 1) j = ux' (i + 1) (d.nu (i + 1) + j) by simp [xOf, hj]]
      exact sweepStep_next d f s same alpha out ux i j hj
  · rw [hux, sweepStep_other d f s same alpha out ux n k (by omega) (by omega)]
    exact h.later k (by omega)
  · rw [hux, sweepStep_next_out d f s same alpha out ux n j (.inl hj), h.later (n + 1) (by omega)]
  · rcases Nat.eq_zero_or_pos n with rfl | hn
    · rw [hst]; exact h.x0 j hj
    · rw [hlt 0 hn]; exact h.x0 j hj
  · by_cases hk : k = n + 1
    · subst hk
      rw [hux, sweepStep_next_out d f s same alpha out ux n j (.inr hj)]
      exact h.slack _ _ hj
    · by_cases hk' : k = n
      · subst hk'
        rw [hux, sweepStep_state d f s same alpha out ux k j (by omega)]
        exact h.slack _ _ hj
      · rw [hux, sweepStep_other d f s same alpha out ux n k hk' hk]
        exact h.slack _ _ hj
  · rcases Nat.lt_succ_iff_lt_or_eq.1 hi with hi' | rfl
    · rw [hlt i hi']; exact h.law hs i hi' j hj
    · rw [show ux' i j = _ from sweepStep_input d f s same alpha out ux i j hj]
      subst hs
      simp only [src, fbk, hst, Bool.false_eq_true, if_false]
  · rcases Nat.lt_succ_iff_lt_or_eq.1 hi with hi' | rfl
    · rw [hlt i hi']; exact h.lawS hs i hi' j hj
    · rw [show ux' i j = _ from sweepStep_input d f s same alpha out ux i j hj]
      subst hs
      simp [src, fbk, h.cur j hj]

theorem sweep_inv (dest : Nat → Nat → K) :
    SweepInv d f s same alpha out dest d.N (sweep d f s same alpha out dest) := by
  unfold sweep
  have key : ∀ n, SweepInv d f s same alpha out dest n
      ((List.range n).foldl (sweepStep d f s same alpha out) (setAt 0 (blit (d.nu 0) (d.nx 0)
        (fun j => out 0 (d.nu 0 + j) + alpha * s.ux 0 (d.nu 0 + j)) (dest 0)) dest)) := by
    intro n
    induction n with
    | zero => exact sweep_zero d f s same alpha out dest
    | succ n ih =>
      rw [List.range_succ, List.foldl_append, List.foldl_cons, List.foldl_nil]
      exact sweep_succ d f s same alpha out dest _ n ih
  exact key d.N

end

/-- the parts of an iterate the dimensions talk about -/
theorem copyOut_ux (d : Dims) (a b : Out K) (i j : Nat) (hi : i ≤ d.N) (hj : j < d.nv i) :
    (copyOut d a b).ux i j = a.ux i j := by simp [copyOut, hi, hj]

theorem xOf_copy (d : Dims) (a b : Out K) (i : Nat) (hi : i ≤ d.N) :
    xOf d (copyOut d a b).ux i = xOf d a.ux i := by
  funext j
  unfold xOf
  split
  · exact copyOut_ux d a b i _ hi (by unfold Dims.nv; omega)
  · rfl

theorem uOf_copy (d : Dims) (a b : Out K) (i : Nat) (hi : i ≤ d.N) :
    uOf d (copyOut d a b).ux i = uOf d a.ux i := by
  funext j
  unfold uOf
  split
  · exact copyOut_ux d a b i _ hi (by unfold Dims.nv; omega)
  · rfl

theorem simulated_copy (d : Dims) (f : Dyn K) (a b : Out K) (h : Simulated d f a.ux) :
    Simulated d f (copyOut d a b).ux := by
  intro i hi j hj
  rw [xOf_copy d a b (i + 1) hi, xOf_copy d a b i hi.le, uOf_copy d a b i hi.le]
  exact h i hi j hj

theorem trial_sim (d : Dims) (f : Dyn K) (s : Step K) (same full : Bool) (alpha : K)
    (out dest : Out K) : Simulated d f (trialIter d f s same full alpha out dest).ux :=
  (sweep_inv d f s same alpha out.ux dest.ux).sim

/-! ## Loop -/

section
variable (d : Dims) (o : Opts K) (e : Env K) (fuel : Nat)

theorem loop_ind (old : Status) (P : St K → Prop) (Q : Status → St K → Prop)
    (hstep : ∀ s s', P s → (s.iter : Int) ≤ o.maxIter → body d o e fuel s = .next s' → P s')
    (hret : ∀ s st s', P s → (s.iter : Int) ≤ o.maxIter → body d o e fuel s = .ret st s' → Q st s')
    (hend : ∀ s, P s → ¬ (s.iter : Int) ≤ o.maxIter → Q old s) :
    ∀ (n : Nat) (s : St K) (st : Status) (s' : St K), P s →
      loop d o e fuel old n s = .ret st s' → Q st s' := by
  intro n
  induction n with
  | zero => intro s st s' _ h; simp [loop] at h
  | succ n ih =>
    intro s st s' hp h
    unfold loop at h
    split at h
    · next hle =>
      split at h
      · next st1 s1 hb =>
        simp only [Body.ret.injEq] at h
        obtain ⟨rfl, rfl⟩ := h
        exact hret s _ _ hp hle hb
      · next s1 hb => exact ih s1 st s' (hstep s s1 hp hle hb) h
      · simp at h
    · next hle =>
      simp only [Body.ret.injEq] at h
      obtain ⟨rfl, rfl⟩ := h
      exact hend s hp hle

@[simp] theorem evalPhase_iter (s : St K) : (evalPhase o e s).iter = s.iter := by
  unfold evalPhase; split <;> rfl
@[simp] theorem evalPhase_x (s : St K) : (evalPhase o e s).x = s.x := by
  unfold evalPhase; split <;> rfl
@[simp] theorem evalPhase_tmp (s : St K) : (evalPhase o e s).tmp = s.tmp := by
  unfold evalPhase; split <;> rfl
@[simp] theorem evalPhase_acc (s : St K) : (evalPhase o e s).acc = s.acc := by
  unfold evalPhase; split <;> rfl
@[simp] theorem evalPhase_stepNorm (s : St K) : (evalPhase o e s).stepNorm = s.stepNorm := by
  unfold evalPhase; split <;> rfl

/-- what a pass through the loop that goes on has done -/
theorem body_next (s s' : St K) (h : body d o e fuel s = .next s') :
    checkTermination o s.iter (evalPhase o e s).res s.stepNorm (evalPhase o e s).cost = none ∧
    (e.qpStatus s.iter s.x = .success ∨ e.qpStatus s.iter s.x = .maxIter) ∧
    s'.iter = s.iter + 1 ∧ s'.acc = s'.x :: s.acc ∧ s'.infeasibleGuess = false ∧
    s'.res = (evalPhase o e s).res ∧ s'.stepNorm = e.stepNorm s.iter s.x ∧
    ((∃ tr, (evalPhase o e s).infeasibleGuess = true ∧
        tr = trialIter d e.dyn (e.step s.iter s.x) false o.fullDual 1 s.x s.tmp ∧
        s'.x = copyOut d tr s.x ∧ s'.alpha = 1 ∧ s'.cost = (evalPhase o e s).cost) ∨
     (∃ len, (evalPhase o e s).infeasibleGuess = false ∧ o.glob = .fixedStep len ∧
        s'.x = trialIter d e.dyn (e.step s.iter s.x) true o.fullDual len s.x s.x ∧
        s'.alpha = len ∧ s'.cost = (evalPhase o e s).cost) ∨
     (∃ mo tr, (evalPhase o e s).infeasibleGuess = false ∧ o.glob = .merit mo ∧
        Merit.ddpFind mo (e.qpCost s.iter s.x) (evalPhase o e s).cost
          (lsTrial d e (e.step s.iter s.x) o.fullDual mo.alphaReduction s.x s.tmp) s.x fuel =
            some (.success, s'.alpha, s'.cost, tr) ∧ s'.x = copyOut d tr s.x)) := by
  unfold body at h
  simp only [evalPhase_iter, evalPhase_stepNorm, evalPhase_x] at h
  split at h
  · simp at h
  · next hc =>
    split at h
    · simp at h
    · next hq =>
      have hq' : e.qpStatus s.iter s.x = .success ∨ e.qpStatus s.iter s.x = .maxIter := by
        by_contra hcon
        exact hq ⟨fun hh => hcon (.inl hh), fun hh => hcon (.inr hh)⟩
      unfold globPhase at h
      simp only [evalPhase_iter, evalPhase_x, evalPhase_tmp, evalPhase_acc] at h
      split at h
      · next hi =>
        simp only [Body.next.injEq] at h
        subst h
        exact ⟨hc, hq', rfl, rfl, rfl, rfl, rfl, .inl ⟨_, hi, rfl, rfl, rfl, rfl⟩⟩
      · next hi =>
        have hi' : (evalPhase o e s).infeasibleGuess = false := by simpa using hi
        split at h
        · next len hg =>
          simp only [Body.next.injEq] at h
          subst h
          exact ⟨hc, hq', rfl, rfl, hi', rfl, rfl, .inr (.inl ⟨_, hi', hg, rfl, rfl, rfl⟩)⟩
        · next mo hg =>
          split at h
          · simp at h
          · next gst a c tr hf =>
            split at h
            · next hs =>
              simp only [Body.next.injEq] at h
              subst h
              subst hs
              exact ⟨hc, hq', rfl, rfl, hi', rfl, rfl, .inr (.inr ⟨mo, tr, hi', hg, hf, rfl⟩)⟩
            · simp at h

/-- what a pass that returns has done -/
theorem body_ret (s s' : St K) (st : Status) (h : body d o e fuel s = .ret st s') :
    s'.x = s.x ∧ s'.acc = s.acc ∧ s'.res = (evalPhase o e s).res ∧
    s'.cost = (evalPhase o e s).cost ∧
    ((checkTermination o s.iter s'.res s.stepNorm s'.cost = some st ∧ s'.iter = s.iter) ∨
     (st = .qpFailure ∧
       checkTermination o s.iter s'.res s.stepNorm s'.cost = none ∧
       ((e.qpStatus s.iter s.x ≠ .success ∧ e.qpStatus s.iter s.x ≠ .maxIter ∧
          s'.iter = s.iter + 1) ∨
        (∃ mo r, o.glob = .merit mo ∧ s'.iter = s.iter ∧
          Merit.ddpFind mo (e.qpCost s.iter s.x) s'.cost
            (lsTrial d e (e.step s.iter s.x) o.fullDual mo.alphaReduction s.x s.tmp) s.x fuel =
              some r ∧ r.1 ≠ .success)))) := by
  unfold body at h
  simp only [evalPhase_iter, evalPhase_stepNorm, evalPhase_x] at h
  split at h
  · next hc =>
    simp only [Body.ret.injEq] at h
    obtain ⟨rfl, rfl⟩ := h
    exact ⟨by simp, by simp, rfl, rfl, .inl ⟨hc, by simp⟩⟩
  · next hc =>
    split at h
    · next hq =>
      simp only [Body.ret.injEq] at h
      obtain ⟨rfl, rfl⟩ := h
      exact ⟨by simp, by simp, rfl, rfl, .inr ⟨rfl, hc, .inl ⟨hq.1, hq.2, by simp⟩⟩⟩
    · unfold globPhase at h
      simp only [evalPhase_iter, evalPhase_x, evalPhase_tmp, evalPhase_acc] at h
      split at h
      · simp at h
      · split at h
        · simp at h
        · next mo hg =>
          split at h
          · simp at h
          · next gst a c tr hf =>
            split at h
            · simp at h
            · next hs =>
              simp only [Body.ret.injEq] at h
              obtain ⟨rfl, rfl⟩ := h
              exact ⟨by simp, by simp, rfl, rfl,
                .inr ⟨rfl, hc, .inr ⟨mo, _, hg, by simp, hf, hs⟩⟩⟩

/-- the termination check passes only below the iteration limit -/
theorem check_none (n : Nat) (r : Sqp.Res) (sn : Dbl) (c : K)
    (h : checkTermination o n r sn c = none) :
    (n : Int) < o.maxIter ∧ ¬ (r.eq < o.tolEq ∧ r.stat < o.tolStat) ∧ r.stat ≠ .nan ∧
      r.eq ≠ .nan ∧ r.ineq ≠ .nan ∧ ¬ (r.eq < o.tolEq ∧ o.adaptiveLm = true ∧ c < o.tolZeroRes) ∧
      ¬ (n > 0 ∧ sn < o.tolEq) := by
  unfold checkTermination at h
  split_ifs at h with h1 h2 h3 h4 h5
  simp only [Bool.or_eq_true, not_or] at h1
  refine ⟨by omega, h2, ?_, ?_, ?_, h3, h4⟩
  · rintro hn; simp [hn, Dbl.isnan] at h1
  · rintro hn; simp [hn, Dbl.isnan] at h1
  · rintro hn; simp [hn, Dbl.isnan] at h1

theorem evalPhase_eval (s : St K) (h : (s.iter : Int) ≠ o.maxIter ∨ o.evalResAtMaxIter = true) :
    (evalPhase o e s).res = e.res s.x ∧
    (needsObj o = true → (evalPhase o e s).cost = e.cost s.x.ux) ∧
    (evalPhase o e s).infeasibleGuess =
      (s.infeasibleGuess && decide ((e.res s.x).eq > o.tolEq)) := by
  unfold evalPhase
  rw [if_pos h]
  exact ⟨rfl, fun hn => by simp [hn], rfl⟩

/-- a successful DDP line search returns one of its trials -/
theorem find_trial {X : Type*} (mo : Merit.Opts K) (q c : K) (trial : Nat → K → X × K) (x : X)
    (a c' : K) (y : X) (h : Merit.ddpFind mo q c trial x fuel = some (.success, a, c', y)) :
    ∃ i, a = mo.alphaReduction ^ i ∧ trial i a = (y, c') ∧ c' ≤ c := by
  unfold Merit.ddpFind at h
  split at h
  · simp at h
  · next st' a' c'' t hl =>
    split at h
    · next hst =>
      simp only [Option.some.injEq, Prod.mk.injEq] at h
      obtain ⟨_, rfl, rfl, rfl⟩ := h
      rcases Merit.ddpLoop_spec mo _ _ _ _ _ _ _ _ _ _ hl with ⟨i, _, h2, h3, h4⟩ | ⟨h1, _⟩
      · have := h4.trans (min_le_right _ _)
        exact ⟨i, by simpa using h2, by simpa using h3, by linarith⟩
      · rw [hst] at h1; simp at h1
    · simp at h

end
end Acados.Ddp
