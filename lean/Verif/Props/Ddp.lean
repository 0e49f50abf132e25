import Verif.Lemmas.Ddp
import Verif.Props.Merit
import Mathlib.Tactic.NormNum
/-!
# Property C20 (DDP)

Vocabulary in `Verif/Spec/Ddp.lean`.
-/
namespace Acados.Ddp
open Finset
variable {K : Type*} [Field K] [LinearOrder K] [IsStrictOrderedRing K]

/-! ## One trial iterate -/

/-- **C20**: every trial iterate satisfies the dynamics exactly, for every gain, step size, previous
content of the destination, and whether or not the destination is the current iterate itself. -/
theorem C20_trial_simulated (d : Dims) (f : Dyn K) (s : Step K) (same full : Bool) (alpha : K)
    (out dest : Out K) : Simulated d f (trialIter d f s same full alpha out dest).ux :=
  trial_sim d f s same full alpha out dest

/-- **C20** (initial state of a trial): `x_0` moves by `alpha` times the QP step. -/
theorem C20_trial_start (d : Dims) (f : Dyn K) (s : Step K) (same full : Bool) (alpha : K)
    (out dest : Out K) (j : Nat) (hj : j < d.nx 0) :
    xOf d (trialIter d f s same full alpha out dest).ux 0 j =
      xOf d out.ux 0 j + alpha * xOf d s.ux 0 j := by
  simp only [xOf, hj, if_true]
  exact (sweep_inv d f s same alpha out.ux dest.ux).x0 j hj

/-- **C20** (feedback law): a trial iterate written to a separate destination applies
`u_i = ū_i + alpha k_i + K_i (x_i - x̄_i)`. -/
theorem C20_trial_feedback (d : Dims) (f : Dyn K) (s : Step K) (full : Bool) (alpha : K)
    (out dest : Out K) (i : Nat) (hi : i < d.N) (j : Nat) (hj : j < d.nu i) :
    let t := (trialIter d f s false full alpha out dest).ux
    uOf d t i j = uOf d out.ux i j + alpha * s.gaink i j +
      ∑ l ∈ range (d.nx i), s.gainK i j l * (xOf d t i l - xOf d out.ux i l) := by
  intro t
  have h := (sweep_inv d f s false alpha out.ux dest.ux).law rfl i hi j hj
  have e1 : uOf d t i j = t i j := by simp [uOf, hj]
  have e2 : uOf d out.ux i j = out.ux i j := by simp [uOf, hj]
  rw [e1, e2, show t i j = _ from h]
  have e3 : (∑ l ∈ range (d.nx i), s.gainK i j l * (xOf d t i l - xOf d out.ux i l)) =
      ∑ l ∈ range (d.nx i), s.gainK i j l * (t i (d.nu i + l) - out.ux i (d.nu i + l)) := by
    refine sum_congr rfl fun l hl => ?_
    simp only [xOf, mem_range.1 hl, if_true]
  rw [e3]
  change _ + ((∑ l ∈ range (d.nx i), s.gainK i j l * (t i (d.nu i + l) - out.ux i (d.nu i + l))) +
    _) = _
  ring

/-- **The feedback law is false with fixed-step globalization**, which writes the trial iterate over
the current one: `x_i - x̄_i` is then always read as zero, so the gain matrices `K_i` have no effect
on any input. -/
theorem C20_fixed_step_drops_feedback (d : Dims) (f : Dyn K) (s : Step K) (full : Bool) (alpha : K)
    (out : Out K) (i : Nat) (hi : i < d.N) (j : Nat) (hj : j < d.nu i) :
    uOf d (trialIter d f s true full alpha out out).ux i j =
      uOf d out.ux i j + alpha * s.gaink i j := by
  simp only [uOf, hj, if_true]
  exact (sweep_inv d f s true alpha out.ux out.ux).lawS rfl i hi j hj

/-- one state, one input, horizon 2, `x⁺ = x + u` -/
def dW : Dims := ⟨2, fun _ => 1, fun i => if i < 2 then 1 else 0, fun _ => 0,
  fun i => if i = 0 then 1 else 0, fun _ => 0⟩
def fW : Dyn ℚ := fun _ x u _ => x 0 + u 0
/-- gains `K = -1`, `k = 1`, initial-state step 2 -/
def sW : Step ℚ := ⟨fun _ j => if j = 1 then 2 else 0, fun _ _ => 7, fun _ _ => 3,
  fun _ _ _ => -1, fun _ _ => 1, fun _ _ => 0, fun _ _ _ => 0⟩
def zeroOut : Out ℚ := ⟨fun _ _ => 0, fun _ _ => 0, fun _ _ => 0, fun _ _ => 0⟩
def oneOut : Out ℚ := ⟨fun _ _ => 1, fun _ _ => 1, fun _ _ => 1, fun _ _ => 1⟩

/-- non-vacuity: half a step with feedback; states 1, 1/2, 1/2 -/
example : (let t := (trialIter dW fW sW false false (1 / 2) zeroOut oneOut).ux
    (uOf dW t 0 0, xOf dW t 0 0, uOf dW t 1 0, xOf dW t 1 0, xOf dW t 2 0) =
      (-1 / 2, 1, 0, 1 / 2, 1 / 2)) ∧
    (let t := (trialIter dW fW sW true false (1 / 2) zeroOut zeroOut).ux
    (uOf dW t 0 0, xOf dW t 0 0, uOf dW t 1 0, xOf dW t 1 0, xOf dW t 2 0) =
      (1 / 2, 1, 1 / 2, 3 / 2, 2)) := by
  decide +kernel

/-! ## The whole solver run -/

/-- the cost reads only variables that exist -/
def CostLocal (d : Dims) (cost : (Nat → Nat → K) → K) : Prop :=
  ∀ a b : Nat → Nat → K, (∀ i ≤ d.N, ∀ j < d.nv i, a i j = b i j) → cost a = cost b

/-- **C20** (iterates): whatever the QP solver returns, every iterate the solver ever accepts
satisfies the dynamics exactly, and what it returns is the last accepted iterate, or the untouched
initial guess if none was accepted. -/
theorem C20_iterates_simulated (d : Dims) (o : Opts K) (e : Env K) (fuel : Nat) (x tmp : Out K)
    (r : Sqp.Res) (c : K) (old st : Status) (s : St K)
    (h : solve d o e fuel x tmp r c old = .ret st s) :
    (∀ y ∈ s.acc, Simulated d e.dyn y.ux) ∧
      (s.acc.head? = some s.x ∨ (s.acc = [] ∧ s.x = x)) := by
  refine loop_ind d o e fuel old
    (P := fun s => (∀ y ∈ s.acc, Simulated d e.dyn y.ux) ∧
      (s.acc.head? = some s.x ∨ (s.acc = [] ∧ s.x = x)))
    (Q := fun _ s => (∀ y ∈ s.acc, Simulated d e.dyn y.ux) ∧
      (s.acc.head? = some s.x ∨ (s.acc = [] ∧ s.x = x))) ?_ ?_ (fun s hp _ => hp) _ _ st s
    ⟨fun y hy => by simp [start] at hy, .inr ⟨rfl, rfl⟩⟩ h
  · intro s s' hp hle hb
    obtain ⟨_, _, _, hacc, _, _, _, hcase⟩ := body_next d o e fuel s s' hb
    rw [hacc]
    refine ⟨fun y hy => ?_, .inl rfl⟩
    rcases List.mem_cons.1 hy with rfl | hy
    · rcases hcase with ⟨tr, _, ht, hx, _⟩ | ⟨len, _, _, hx, _⟩ | ⟨mo, tr, _, _, hf, hx⟩
      · rw [hx, ht]; exact simulated_copy _ _ _ _ (trial_sim _ _ _ _ _ _ _ _)
      · rw [hx]; exact trial_sim _ _ _ _ _ _ _ _
      · rw [hx]
        refine simulated_copy _ _ _ _ ?_
        obtain ⟨i, _, hi, _⟩ := find_trial fuel mo _ _ _ _ _ _ _ hf
        rw [show tr = (lsTrial d e (e.step s.iter s.x) o.fullDual mo.alphaReduction s.x s.tmp i
            s'.alpha).1 by rw [hi]]
        exact trial_sim _ _ _ _ _ _ _ _
    · exact hp.1 y hy
  · intro s st s' hp _ hb
    obtain ⟨h1, h2, _⟩ := body_ret d o e fuel s s' st hb
    rw [h1, h2]; exact hp

/-- **C20** (cost): with the Armijo globalization the cost never increases from one accepted iterate
to the next; and if the initial guess passed the feasibility test, the first accepted iterate does
not cost more than the guess either.  (`acc` lists the newest iterate first.) -/
theorem C20_cost_monotone (d : Dims) (o : Opts K) (mo : Merit.Opts K) (hm : o.glob = .merit mo)
    (e : Env K) (hl : CostLocal d e.cost) (fuel : Nat) (x tmp : Out K)
    (r : Sqp.Res) (c : K) (old st : Status) (s : St K)
    (h : solve d o e fuel x tmp r c old = .ret st s) :
    List.IsChain (fun new old => e.cost new.ux ≤ e.cost old.ux) s.acc ∧
    (¬ (e.res x).eq > o.tolEq →
      List.IsChain (fun new old => e.cost new.ux ≤ e.cost old.ux) (s.acc ++ [x])) := by
  set R := fun new old : Out K => e.cost new.ux ≤ e.cost old.ux with hR
  set P := fun s : St K => List.IsChain R s.acc ∧
    (¬ (e.res x).eq > o.tolEq → List.IsChain R (s.acc ++ [x])) ∧
    (s.acc.head? = some s.x ∨ (s.acc = [] ∧ s.x = x)) ∧
    (s.infeasibleGuess = true → s.acc = []) with hP
  have hno : needsObj o = true := by simp [needsObj, hm]
  have := loop_ind d o e fuel old (P := P) (Q := fun _ s => P s ∨ (List.IsChain R s.acc ∧
    (¬ (e.res x).eq > o.tolEq → List.IsChain R (s.acc ++ [x])))) ?_ ?_ (fun s hp _ => .inl hp) _ _ st s
    (by refine ⟨?_, ?_, ?_, ?_⟩ <;> simp [start]) h
  · rcases this with h | h
    · exact ⟨h.1, h.2.1⟩
    · exact h
  · intro s s' hp hle hb
    obtain ⟨hc, _, _, hacc, hfl, _, _, hcase⟩ := body_next d o e fuel s s' hb
    have hlt := (check_none o _ _ _ _ hc).1
    obtain ⟨_, hcost, hinf⟩ := evalPhase_eval o e s (.inl (by omega))
    have hcost := hcost hno
    obtain ⟨p1, p2, p3, p4⟩ := hp
    -- the new iterate does not cost more than the old one, unless it is the forward simulation
    have hstep : (evalPhase o e s).infeasibleGuess = false → R s'.x s.x := by
      intro hi
      rcases hcase with ⟨tr, hi', _⟩ | ⟨len, _, hg, _⟩ | ⟨mo', tr, _, hg, hf, hx⟩
      · simp [hi] at hi'
      · rw [hm] at hg; simp at hg
      · obtain ⟨hle, hrest⟩ := Merit.C20_ddp_cost_nonincreasing _ _ _ _ _ _ _ _ _ _ hf
        change e.cost s'.x.ux ≤ e.cost s.x.ux
        have hcp : e.cost s'.x.ux = e.cost tr.ux :=
          hl _ _ fun i hi j hj => by rw [hx]; exact copyOut_ux d tr s.x i j hi hj
        rw [hcp]
        rcases hrest with ⟨_, j, hj⟩ | ⟨rfl, _⟩
        · have : s'.cost = e.cost tr.ux := by
            have h1 : tr = (lsTrial d e (e.step s.iter s.x) o.fullDual mo'.alphaReduction s.x s.tmp
              j s'.alpha).1 := by rw [hj]
            have h2 : s'.cost = (lsTrial d e (e.step s.iter s.x) o.fullDual mo'.alphaReduction s.x
              s.tmp j s'.alpha).2 := by rw [hj]
            rw [h2, h1]; rfl
          rw [← this]
          exact hle.trans hcost.le
        · exact le_rfl
    refine ⟨?_, ?_, .inl (by rw [hacc]; rfl), fun hh => by rw [hfl] at hh; simp at hh⟩
    · rw [hacc]
      rcases p3 with p3 | ⟨p3, _⟩
      · obtain ⟨l, hl'⟩ : ∃ l, s.acc = s.x :: l := by
          cases hs : s.acc with
          | nil => rw [hs] at p3; simp at p3
          | cons a l => rw [hs] at p3; simp at p3; exact ⟨l, by rw [p3]⟩
        rw [hl', List.isChain_cons_cons]
        refine ⟨hstep ?_, by rw [← hl']; exact p1⟩
        rw [hinf]
        cases hf : s.infeasibleGuess with
        | false => rfl
        | true => have := p4 hf; rw [hl'] at this; simp at this
      · rw [p3]; exact List.isChain_singleton _
    · intro hx
      rw [hacc]
      rcases p3 with p3 | ⟨p3, hsx⟩
      · obtain ⟨l, hl'⟩ : ∃ l, s.acc = s.x :: l := by
          cases hs : s.acc with
          | nil => rw [hs] at p3; simp at p3
          | cons a l => rw [hs] at p3; simp at p3; exact ⟨l, by rw [p3]⟩
        have p2 := p2 hx
        rw [hl', List.cons_append, List.cons_append, List.isChain_cons_cons]
        rw [hl', List.cons_append] at p2
        refine ⟨hstep ?_, p2⟩
        rw [hinf]
        cases hf : s.infeasibleGuess with
        | false => rfl
        | true => have := p4 hf; rw [hl'] at this; simp at this
      · rw [p3, List.singleton_append, List.isChain_cons_cons]
        refine ⟨?_, List.isChain_singleton _⟩
        rw [← hsx]
        refine hstep ?_
        rw [hinf, hsx]
        simp [hx]
  · intro s st s' hp _ hb
    obtain ⟨h1, h2, _⟩ := body_ret d o e fuel s s' st hb
    right
    rw [h2]; exact ⟨hp.1, hp.2.1⟩

/-- **C20** (initial state): suppose every QP is solved so that its step closes the distance to the
prescribed initial state.  If the initial guess starts there, or violates the dynamics by more than
the tolerance, then every accepted iterate starts at the prescribed state. -/
theorem C20_initial_state (d : Dims) (o : Opts K) (e : Env K) (x0 : Nat → K)
    (hqp : ∀ n y, ∀ j < d.nx 0, xOf d (e.step n y).ux 0 j = x0 j - xOf d y.ux 0 j)
    (fuel : Nat) (x tmp : Out K) (r : Sqp.Res) (c : K) (old st : Status) (s : St K)
    (hguess : StartsAt d x0 x.ux ∨ (e.res x).eq > o.tolEq)
    (h : solve d o e fuel x tmp r c old = .ret st s) :
    ∀ y ∈ s.acc, StartsAt d x0 y.ux := by
  set P := fun s : St K => (∀ y ∈ s.acc, StartsAt d x0 y.ux) ∧
    ((s.acc ≠ [] ∧ s.acc.head? = some s.x) ∨
      (s.acc = [] ∧ s.x = x ∧ s.infeasibleGuess = true)) with hP
  refine loop_ind d o e fuel old (P := P) (Q := fun _ s => ∀ y ∈ s.acc, StartsAt d x0 y.ux)
    ?_ ?_ (fun s hp _ => hp.1) _ _ st s ⟨fun y hy => by simp [start] at hy, .inr ⟨rfl, rfl, rfl⟩⟩ h
  · intro s s' hp hle hb
    obtain ⟨hc, _, _, hacc, _, _, _, hcase⟩ := body_next d o e fuel s s' hb
    have hlt := (check_none o _ _ _ _ hc).1
    obtain ⟨_, _, hinf⟩ := evalPhase_eval o e s (.inl (by omega))
    obtain ⟨p1, p2⟩ := hp
    rw [hP]
    simp only
    rw [hacc]
    refine ⟨fun y hy => ?_, .inl ⟨by simp, rfl⟩⟩
    rcases List.mem_cons.1 hy with rfl | hy
    swap
    · exact p1 y hy
    -- a step of any size keeps the initial state, a full step reaches it
    have key : ∀ (same : Bool) (alpha : K) (dest : Out K), StartsAt d x0 s.x.ux ∨ alpha = 1 →
        StartsAt d x0 (trialIter d e.dyn (e.step s.iter s.x) same o.fullDual alpha s.x dest).ux := by
      intro same alpha dest ha j hj
      rw [C20_trial_start _ _ _ _ _ _ _ _ j hj, hqp _ _ j hj]
      rcases ha with ha | rfl
      · rw [ha j hj]; ring
      · ring
    have hcopy : ∀ t : Out K, StartsAt d x0 t.ux → StartsAt d x0 (copyOut d t s.x).ux := by
      intro t ht j hj
      rw [xOf_copy d t s.x 0 (by omega)]; exact ht j hj
    have hcur : (evalPhase o e s).infeasibleGuess = false → StartsAt d x0 s.x.ux := by
      intro hi
      rcases p2 with ⟨_, p2⟩ | ⟨_, p2, p3⟩
      · exact p1 s.x (List.mem_of_mem_head? p2)
      · rw [hinf, p3, p2] at hi
        simp only [Bool.true_and, decide_eq_false_iff_not] at hi
        rw [p2]
        exact hguess.resolve_right hi
    rcases hcase with ⟨tr, hi, ht, hx, _⟩ | ⟨len, hi, _, hx, _⟩ | ⟨mo, tr, hi, _, hf, hx⟩
    · rw [hx, ht]; exact hcopy _ (key false 1 s.tmp (.inr rfl))
    · rw [hx]; exact key true len s.x (.inl (hcur hi))
    · rw [hx]
      obtain ⟨i, _, hi', _⟩ := find_trial fuel mo _ _ _ _ _ _ _ hf
      rw [show tr = (lsTrial d e (e.step s.iter s.x) o.fullDual mo.alphaReduction s.x s.tmp i
            s'.alpha).1 by rw [hi']]
      exact hcopy _ (key false s'.alpha _ (.inl (hcur hi)))
  · intro s st s' hp _ hb
    obtain ⟨_, h2, _⟩ := body_ret d o e fuel s s' st hb
    rw [h2]; exact hp.1

/-! ### A complete example: `x⁺ = x + u`, cost `Σ x² + u²`, prescribed initial state `x0` -/

/-- residuals of this problem at a trajectory with zero multipliers (`stat` is the gradient of the
cost projected on the dynamics, evaluated here with zero multipliers) -/
def ab (q : ℚ) : Dbl := .fin |q|
def costW (u : Nat → Nat → ℚ) : ℚ :=
  (∑ i ∈ range 3, xOf dW u i 0 ^ 2) + ∑ i ∈ range 2, uOf dW u i 0 ^ 2
def gapW (u : Nat → Nat → ℚ) : ℚ :=
  max |xOf dW u 0 0 + uOf dW u 0 0 - xOf dW u 1 0| |xOf dW u 1 0 + uOf dW u 1 0 - xOf dW u 2 0|
/-- largest entry of the gradient of the Lagrangian -/
def statW (y : Out ℚ) : ℚ :=
  max (max (max |2 * xOf dW y.ux 0 0 + y.pi 0 0 + y.lam 0 1 - y.lam 0 0|
      |2 * xOf dW y.ux 1 0 + y.pi 1 0 - y.pi 0 0|) (max |2 * xOf dW y.ux 2 0 - y.pi 1 0|
      |2 * uOf dW y.ux 0 0 + y.pi 0 0|)) |2 * uOf dW y.ux 1 0 + y.pi 1 0|
def resW (x0 : ℚ) (y : Out ℚ) : Sqp.Res :=
  ⟨.fin (statW y), .fin (gapW y.ux), .fin |xOf dW y.ux 0 0 - x0|, .fin 0⟩
/-- exact Riccati gains `K_0 = -3/5`, `K_1 = -1/2`, with `k` from the linearisation at `y` -/
def envW (x0 : ℚ) : Env ℚ where
  dyn := fW
  cost := costW
  res := resW x0
  qpStatus := fun _ _ => .success
  step := fun _ y =>
    { ux := fun _ j => if j = 1 then x0 - y.ux 0 1 else 0
      lam := fun _ _ => 0
      pi := fun _ _ => 0
      gainK := fun i _ _ => if i = 0 then -3 / 5 else -1 / 2
      gaink := fun i _ => if i = 0 then -3 / 5 * y.ux 0 1 - y.ux 0 0 else -1 / 2 * y.ux 1 1 - y.ux 1 0
      zAlg := fun _ _ => 0
      dzduxt := fun _ _ _ => 0 }
  qpCost := fun _ _ => 0
  stepNorm := fun _ _ => .fin 1
def optsW (g : Glob ℚ) (n : Int) : Opts ℚ := ⟨n, true, .fin (1 / 1000), .fin (1 / 1000), 0, false, false, g⟩

/-- the run returned and its result passes the test `p` -/
def retTest (p : Status → St ℚ → Bool) : Body ℚ → Bool
  | .ret st s => p st s
  | _ => false

theorem retTest_spec (p : Status → St ℚ → Bool) (b : Body ℚ) (h : retTest p b = true) :
    ∃ st s, b = .ret st s ∧ p st s = true := by
  cases b with
  | ret st s => exact ⟨st, s, rfl, h⟩
  | next s => simp [retTest] at h
  | running => simp [retTest] at h

/-- status, states and inputs of a returned run, newest iterate first -/
def showRun : Body ℚ → Option (Status × List (List ℚ))
  | .ret st s => some (st, s.acc.map fun y => [xOf dW y.ux 0 0, uOf dW y.ux 0 0, xOf dW y.ux 1 0,
      uOf dW y.ux 1 0, xOf dW y.ux 2 0])
  | _ => none

/-- non-vacuity: from an infeasible guess the first step is the forward simulation, and the optimal
trajectory `5, 2, 1` is reached at once -/
example : showRun (solve dW (optsW (.merit .default) 1) (envW 5) 40
    { oneOut with ux := fun i j => if i = 0 then 5 else j } zeroOut (resW 5 oneOut) 0 .ready) =
    some (.maxIter, [[5, -3, 2, -1, 1]]) := by decide +kernel

/-- the cost of the example reads only existing variables, and its QP steps close the distance to
the initial state, as `C20_cost_monotone` and `C20_initial_state` ask for -/
theorem costW_local : CostLocal dW costW := by
  intro a b h
  have hx : ∀ i ≤ 2, xOf dW a i 0 = xOf dW b i 0 := fun i hi => by
    simp only [xOf]
    split
    · exact h i hi _ (by simp only [Dims.nv] at *; omega)
    · rfl
  have hu : ∀ i < 2, uOf dW a i 0 = uOf dW b i 0 := fun i hi => by
    simp only [uOf]
    split
    · exact h i (by simp only [dW]; omega) _ (by simp only [Dims.nv] at *; omega)
    · rfl
  unfold costW
  have h1 : (∑ i ∈ range 3, xOf dW a i 0 ^ 2) = ∑ i ∈ range 3, xOf dW b i 0 ^ 2 :=
    sum_congr rfl fun i hi => by rw [hx i (by have := mem_range.1 hi; omega)]
  have h2 : (∑ i ∈ range 2, uOf dW a i 0 ^ 2) = ∑ i ∈ range 2, uOf dW b i 0 ^ 2 :=
    sum_congr rfl fun i hi => by rw [hu i (mem_range.1 hi)]
  rw [h1, h2]

example : ∀ n y, ∀ j < dW.nx 0, xOf dW ((envW 5).step n y).ux 0 j = 5 - xOf dW y.ux 0 j := by
  intro n y j hj
  have : j = 0 := by simp only [dW] at hj; omega
  subst this
  simp [xOf, dW, envW]

/-- from a feasible guess at the right initial state the line search accepts the full step -/
example : showRun (solve dW (optsW (.merit .default) 2) (envW 5) 40
    { zeroOut with ux := fun i j => if j = 1 ∨ i = 2 then 5 else 0 } zeroOut (resW 5 oneOut) 0
      .ready) = some (.maxIter, [[5, -3, 2, -1, 1], [5, -3, 2, -1, 1]]) := by decide +kernel

/-- **C20 is false for the prescribed initial state in general**: the inequality residual, which
contains the initial-state constraint, is not looked at.  For a guess that satisfies the dynamics
and is stationary the solver returns SUCCESS without moving, although `x_0 = 0` and the prescribed
initial state is `5`. -/
theorem C20_success_at_wrong_initial_state :
    ∃ s, solve dW (optsW (.merit .default) 20) (envW 5) 40 zeroOut zeroOut (resW 5 zeroOut) 0 .ready =
      .ret .success s ∧ xOf dW s.x.ux 0 0 = 0 ∧ ((envW 5).res s.x).ineq = .fin 5 := by
  obtain ⟨st, s, h, hp⟩ := retTest_spec (fun st s => st == .success && xOf dW s.x.ux 0 0 == 0 &&
    ((envW 5).res s.x).ineq == .fin 5) (solve dW (optsW (.merit .default) 20) (envW 5) 40 zeroOut
      zeroOut (resW 5 zeroOut) 0 .ready) (by decide +kernel)
  simp only [Bool.and_eq_true, beq_iff_eq] at hp
  obtain ⟨⟨rfl, h1⟩, h2⟩ := hp
  exact ⟨s, h, h1, h2⟩

/-- **The cost may increase with fixed-step globalization** (which has no acceptance test). -/
theorem C20_fixed_step_cost_increases :
    ∃ s y z, solve dW (optsW (.fixedStep 3) 2) (envW 5) 40
      { zeroOut with ux := fun i j => if j = 1 ∨ i = 2 then 5 else 0 } zeroOut (resW 5 oneOut) 0
        .ready = .ret .maxIter s ∧ s.acc = [z, y] ∧ costW y.ux < costW z.ux := by
  obtain ⟨st, s, h, hp⟩ := retTest_spec (fun st s => st == .maxIter && (match s.acc with
      | [z, y] => decide (costW y.ux < costW z.ux)
      | _ => false)) (solve dW (optsW (.fixedStep 3) 2) (envW 5) 40
      { zeroOut with ux := fun i j => if j = 1 ∨ i = 2 then 5 else 0 } zeroOut (resW 5 oneOut) 0
        .ready) (by decide +kernel)
  simp only [Bool.and_eq_true, beq_iff_eq] at hp
  obtain ⟨rfl, h1⟩ := hp
  split at h1
  · next z y hacc => exact ⟨s, y, z, h, hacc, by simpa using h1⟩
  · simp at h1

/-! ## Status -/

/-- **C20** (status): for a nonnegative iteration limit the status is one of five, and it means what
it says about the returned iterate: SUCCESS only if the residuals of dynamics and stationarity are
below tolerance, or the zero-residual test fired.  (Assumption: the residuals are evaluated at least
once.) -/
theorem C20_status (d : Dims) (o : Opts K) (e : Env K) (fuel : Nat) (x tmp : Out K)
    (r : Sqp.Res) (c : K) (old st : Status) (s : St K)
    (hm : 0 ≤ o.maxIter) (hev : o.maxIter ≠ 0 ∨ o.evalResAtMaxIter = true)
    (h : solve d o e fuel x tmp r c old = .ret st s) :
    (st = .success → ((e.res s.x).eq < o.tolEq ∧ (e.res s.x).stat < o.tolStat) ∨
      (o.adaptiveLm = true ∧ s.cost < o.tolZeroRes)) ∧
    (st = .maxIter → (s.iter : Int) = o.maxIter) ∧
    (st = .nanDetected → (e.res s.x).stat = .nan ∨ (e.res s.x).eq = .nan ∨
      (e.res s.x).ineq = .nan) ∧
    st ∈ [.success, .nanDetected, .minStep, .maxIter, .qpFailure] := by
  set P := fun s : St K => (s.iter : Int) ≤ o.maxIter ∧
    (s.iter > 0 → ¬ (s.res.eq < o.tolEq ∧ s.res.stat < o.tolStat) ∧
      s.res.stat ≠ .nan ∧ s.res.eq ≠ .nan ∧ s.res.ineq ≠ .nan) with hP
  refine loop_ind d o e fuel old (P := P) (Q := fun st s =>
    (st = .success → ((e.res s.x).eq < o.tolEq ∧ (e.res s.x).stat < o.tolStat) ∨
      (o.adaptiveLm = true ∧ s.cost < o.tolZeroRes)) ∧
    (st = .maxIter → (s.iter : Int) = o.maxIter) ∧
    (st = .nanDetected → (e.res s.x).stat = .nan ∨ (e.res s.x).eq = .nan ∨
      (e.res s.x).ineq = .nan) ∧
    st ∈ [.success, .nanDetected, .minStep, .maxIter, .qpFailure])
    ?_ ?_ (fun s hp hn => absurd hp.1 hn) _ _ st s ⟨by simpa [start] using hm, by simp [start]⟩ h
  · intro s s' hp hle hb
    obtain ⟨hc, _, hit, _, _, hres, _, _⟩ := body_next d o e fuel s s' hb
    obtain ⟨h1, h2, h3, h4, h5, _⟩ := check_none o _ _ _ _ hc
    refine ⟨by rw [hit]; push_cast; omega, fun _ => ?_⟩
    rw [hres]
    exact ⟨h2, h3, h4, h5⟩
  · intro s st s' hp hle hb
    obtain ⟨hx, _, hres, hcost, hcase⟩ := body_ret d o e fuel s s' st hb
    -- the residuals used by the check
    have hr : s'.res = e.res s'.x ∨ (s.iter > 0 ∧ s'.res = s.res) := by
      by_cases hE : (s.iter : Int) ≠ o.maxIter ∨ o.evalResAtMaxIter = true
      · left; rw [hres, hx]; exact (evalPhase_eval o e s hE).1
      · right
        simp only [not_or, not_not] at hE
        refine ⟨?_, ?_⟩
        · rcases hev with hev | hev
          · have := hE.1; omega
          · exact absurd hev hE.2
        · rw [hres]
          unfold evalPhase
          rw [if_neg (by simpa using hE)]
    rcases hcase with ⟨hc, hi⟩ | ⟨rfl, _, _⟩
    · unfold checkTermination at hc
      split_ifs at hc with h1 h2 h3 h4 h5
      · simp only [Option.some.injEq] at hc
        subst hc
        refine ⟨by simp, by simp, fun _ => ?_, by simp⟩
        simp only [Bool.or_eq_true] at h1
        have hn : s'.res.stat = .nan ∨ s'.res.eq = .nan ∨ s'.res.ineq = .nan := by
          have key : ∀ a : Dbl, a.isnan = true → a = .nan := by
            intro a; cases a <;> simp [Dbl.isnan]
          rcases h1 with (h1 | h1) | h1
          · exact .inl (key _ h1)
          · exact .inr (.inl (key _ h1))
          · exact .inr (.inr (key _ h1))
        rcases hr with hr | ⟨hpos, hr⟩
        · rwa [hr] at hn
        · rw [hr] at hn
          obtain ⟨_, q2, q3, q4⟩ := hp.2 hpos
          rcases hn with hn | hn | hn
          · exact absurd hn q2
          · exact absurd hn q3
          · exact absurd hn q4
      · simp only [Option.some.injEq] at hc
        subst hc
        refine ⟨fun _ => .inl ?_, by simp, by simp, by simp⟩
        rcases hr with hr | ⟨hpos, hr⟩
        · rwa [hr] at h2
        · rw [hr] at h2
          exact absurd h2 (hp.2 hpos).1
      · simp only [Option.some.injEq] at hc
        subst hc
        exact ⟨fun _ => .inr h3.2, by simp, by simp, by simp⟩
      · simp only [Option.some.injEq] at hc
        subst hc
        exact ⟨by simp, by simp, by simp, by simp⟩
      · simp only [Option.some.injEq] at hc
        subst hc
        exact ⟨by simp, fun _ => by rw [hi]; omega, by simp, by simp⟩
    · exact ⟨by simp, by simp, by simp, by simp⟩

/-- **Findings** about the status: (1) a failed line search is reported as QP_FAILURE although every
QP was solved; (2) with `max_iter = 0` and without residual evaluation, SUCCESS can be reported from
residuals of an earlier call. -/
theorem C20_status_misreported :
    (∃ s, solve dW (optsW (.merit .default) 20)
        { envW 5 with cost := fun u => if uOf dW u 0 0 = 0 then 0 else 1 } 40
        { zeroOut with ux := fun i j => if j = 1 ∨ i = 2 then 5 else 0 } zeroOut (resW 5 oneOut) 0
        .ready = .ret .qpFailure s) ∧
    (∃ s, solve dW { optsW (.merit .default) 0 with evalResAtMaxIter := false } (envW 5) 40
        oneOut zeroOut (resW 5 zeroOut) 0 .ready = .ret .success s ∧
        ((envW 5).res s.x).eq = .fin 1) := by
  constructor
  · obtain ⟨st, s, h, hp⟩ := retTest_spec (fun st s => st == .qpFailure)
      (solve dW (optsW (.merit .default) 20)
        { envW 5 with cost := fun u => if uOf dW u 0 0 = 0 then 0 else 1 } 40
        { zeroOut with ux := fun i j => if j = 1 ∨ i = 2 then 5 else 0 } zeroOut (resW 5 oneOut) 0
        .ready) (by decide +kernel)
    simp only [beq_iff_eq] at hp
    subst hp
    exact ⟨s, h⟩
  · obtain ⟨st, s, h, hp⟩ := retTest_spec (fun st s => st == .success &&
        ((envW 5).res s.x).eq == .fin 1)
      (solve dW { optsW (.merit .default) 0 with evalResAtMaxIter := false } (envW 5) 40
        oneOut zeroOut (resW 5 zeroOut) 0 .ready) (by decide +kernel)
    simp only [Bool.and_eq_true, beq_iff_eq] at hp
    obtain ⟨rfl, h1⟩ := hp
    exact ⟨s, h, h1⟩

/-! ## Multipliers -/

/-- **C20** (multipliers): in the line search the multipliers of every trial, whatever its step size
`red ^ j` and whatever the value read as `full_step_dual`, are those of the QP: the first trial has
step size one and every later trial averages the previous content of the trial iterate. -/
theorem C20_multipliers_always_full (d : Dims) (e : Env K) (s : Step K) (full : Bool) (red : K)
    (out tmp : Out K) (j : Nat) :
    let t := (lsTrial d e s full red out tmp j (red ^ j)).1
    (∀ i ≤ d.N, ∀ k < 2 * d.ni i, t.lam i k = s.lam i k) ∧
    (∀ i < d.N, ∀ k < d.nx (i + 1), t.pi i k = s.pi i k) := by
  have hz : lsTrial d e s full red out tmp j (red ^ j) =
      (tmpSeq d e.dyn s full red out tmp (j + 1), _) := rfl
  rw [hz]
  simp only
  induction j with
  | zero =>
    refine ⟨fun i hi k hk => ?_, fun i hi k hk => ?_⟩
    · simp [tmpSeq, trialIter, dualUpd, Nat.lt_succ_of_le hi, hk]
    · simp [tmpSeq, trialIter, dualUpd, hi, hk]
  | succ n ih =>
    have ih := ih rfl
    refine ⟨fun i hi k hk => ?_, fun i hi k hk => ?_⟩
    · have := ih.1 i hi k hk
      rw [tmpSeq]
      simp only [trialIter, dualUpd, Nat.lt_succ_of_le hi, hk, if_true, this]
      split
      · rfl
      · ring
    · have := ih.2 i hi k hk
      rw [tmpSeq]
      simp only [trialIter, dualUpd, hi, hk, if_true, this]
      split
      · rfl
      · ring

/-! ## Termination -/

/-- **C20** (termination): with `alpha_min > 0` and `0 ≤ alpha_reduction < 1` a DDP call returns. -/
theorem C20_terminates [Archimedean K] (d : Dims) (o : Opts K) (e : Env K) (x tmp : Out K)
    (r : Sqp.Res) (c : K) (old : Status)
    (ho : ∀ mo, o.glob = .merit mo → 0 < mo.alphaMin ∧ 0 ≤ mo.alphaReduction ∧ mo.alphaReduction < 1) :
    ∃ fuel st s, solve d o e fuel x tmp r c old = .ret st s := by
  -- one fuel that suffices for every line search
  obtain ⟨fuel, hf⟩ : ∃ fuel, ∀ mo, o.glob = .merit mo → ∀ (q c : K) (trial : Nat → K → Out K × K)
      (y : Out K), ∃ r, Merit.ddpFind mo q c trial y fuel = some r := by
    cases hg : o.glob with
    | fixedStep l => exact ⟨0, fun mo h => by simp at h⟩
    | merit mo =>
      obtain ⟨h1, h2, h3⟩ := ho mo hg
      obtain ⟨n, hn⟩ := Merit.C12_ddp_terminates (X := Out K) mo.alphaMin mo.alphaReduction h1 h2 h3
      refine ⟨n + 1, fun mo' h => ?_⟩
      simp only [Glob.merit.injEq] at h
      subst h
      exact hn mo rfl rfl
  refine ⟨fuel, ?_⟩
  have hbody : ∀ s, body d o e fuel s ≠ .running := by
    intro s hb
    unfold body at hb
    simp only at hb
    split at hb
    · simp at hb
    · split at hb
      · simp at hb
      · unfold globPhase at hb
        simp only at hb
        split at hb
        · simp at hb
        · split at hb
          · simp at hb
          · next mo hg =>
            split at hb
            · next hn =>
              obtain ⟨r, hr⟩ := hf mo hg _ _ _ _
              rw [hr] at hn; simp at hn
            · split at hb <;> simp at hb
  have key : ∀ (n : Nat) (s : St K), (o.maxIter + 1 - s.iter).toNat < n →
      ∃ st s', loop d o e fuel old n s = .ret st s' := by
    intro n
    induction n with
    | zero => intro s h; omega
    | succ n ih =>
      intro s hn
      unfold loop
      split
      · next hle =>
        cases hb : body d o e fuel s with
        | running => exact absurd hb (hbody s)
        | ret st s' => exact ⟨st, s', rfl⟩
        | next s' =>
          obtain ⟨_, _, hit, _⟩ := body_next d o e fuel s s' hb
          exact ih s' (by rw [hit]; push_cast; omega)
      · exact ⟨_, _, rfl⟩
  refine key _ _ ?_
  simp [start]

/-! ## Accepted problem class -/

/-- **C20**: the sanity check run before the first solve lets a problem through exactly if no stage
but the first has inequality constraints. -/
theorem C20_only_initial_constraints (d : Dims) (nbx0 : Nat) :
    precomputeOk d nbx0 = true ↔ nbx0 ≤ d.ni 0 ∧ ∀ i, 1 ≤ i → i ≤ d.N → d.ni i = 0 := by
  simp only [precomputeOk, Bool.and_eq_true, decide_eq_true_eq, List.all_eq_true, List.mem_range,
    Bool.or_eq_true, beq_iff_eq]
  refine and_congr_right fun _ => ⟨fun h i h1 h2 => ?_, fun h i hi => ?_⟩
  · exact (h i (by omega)).resolve_left (by omega)
  · rcases Nat.eq_zero_or_pos i with rfl | hp
    · exact .inl rfl
    · exact .inr (h i hp (by omega))

example : precomputeOk dW 1 = true ∧ precomputeOk { dW with ni := fun _ => 1 } 1 = false := by
  decide

end Acados.Ddp
