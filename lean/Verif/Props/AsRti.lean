import Verif.Lemmas.AsRti
import Mathlib.Algebra.Order.Ring.Rat
import Mathlib.Tactic.NormNum
import Mathlib.Tactic.LinearCombination
import Mathlib.Tactic.Ring
import Mathlib.Tactic.SplitIfs
import Mathlib.Tactic.Linarith
/-!
# C96: fixed points of the advanced-step real-time iterations

Level C stops exactly at points satisfying the optimality conditions of the nonlinear problem (`C96_levelC_partial`, linear constraints;
`C96_terminal_false`: the check for nonlinear constraints omits the last stage).  Level B, with full steps, stops exactly at points that
satisfy the constraints and the stationarity condition of the quadratic model (`C96_levelB_partial`, refuted for shorter steps by
`C96_step_false`).  Logging residuals does not change the iterations if the constraints are linear (`C96_log_partial`, `C96_log_false`).
The advanced problem starts at the next state (`C96_advance_partial`, `C96_advance_false`).
-/
namespace Acados.AsRti
open Finset
variable {K : Type} [Field K] [LinearOrder K]

/-- **C96 (level C; partial: linear constraints).** After preparation and feedback at any iterate with the problem `p1`, and any number of level C
iterations with the problem `p`, whatever the QP solver returned and whatever the step length: no step, with the multipliers of the dynamics kept, is optimal
for the next QP exactly if the iterate is optimal for `p`. -/
theorem C96_levelC_partial (d : Dims) (p1 p : Nlp K) (hlin : ∀ k ≤ d.N, ∀ v v' i j, p1.dh k v i j = p.dh k v' i j) (hs : Nat → Nat → Nat → K) (zs : Nat → Nat → K)
    (sol : Quad K → Point K) (a : K) (full : Bool) (n : Nat) (m0 : Mem K) (lam : Nat → Nat → K) :
    let m := iter d sol a full (levelC d p) n (feedback d p1 sol a full (linearize d p1 hs zs m0))
    (quad d (levelC d p m)).Kkt d (noStep m.out.pi lam) ↔ p.Kkt d ⟨m.out.v, m.out.pi, lam⟩ := by
  intro m
  have hG : m.G = fun k => p1.dh k (m0.out.v k) := (iter_keeps d sol a full (levelC d p) (fun _ => ⟨rfl, rfl, rfl, rfl⟩) n _).2.2.1
  rw [kkt_noStep]
  unfold Nlp.Kkt
  rw [feasible_iff]
  refine and_congr (forall_congr' fun k => forall_congr' fun hk => forall_congr' fun i => forall_congr' fun hi => ?_) Iff.rfl
  have e1 : (quad d (levelC d p m)).g k i + dynTerm d (quad d (levelC d p m)).A m.out.pi k i = _ := levelC_g d p m k i
  rw [e1]
  have e2 : (quad d (levelC d p m)).G = m.G := rfl
  rw [e2, hG]
  have e3 : ∀ j, p1.dh k (m0.out.v k) i j = p.dh k (m.out.v k) i j := fun j => hlin k hk _ _ i j
  simp only [e3]

/-- **C96 (level C): the QP of an iteration.** A step is optimal for the QP of level C exactly if it satisfies the linearised optimality conditions
of the nonlinear problem with the Hessian `H`, `m.Z` and the stored Jacobians `m.A`, `m.G` in place of the exact derivatives: the gradient of
the Lagrangian at the iterate is exact in the dynamics. -/
theorem C96_levelC_newton (d : Dims) (p : Nlp K) (m : Mem K) (H : Nat → Nat → Nat → K) (hH : LowerOf d m.L H) (w : Point K) :
    (quad d (levelC d p m)).Kkt d w ↔
      (∀ k ≤ d.N, ∀ i < d.nv k, p.grad k (m.out.v k) i + dynTerm d (fun k => p.dphi k (m.out.v k)) m.out.pi k i
          + hessTimes d H m.Z w.v k i + dynTerm d m.A (fun k j => w.pi k j - m.out.pi k j) k i + ∑ j ∈ range (2 * d.ni k), m.G k i j * w.lam k j = 0)
      ∧ (∀ k < d.N, ∀ j < d.nx (k + 1), p.phi k (m.out.v k) j + ∑ i ∈ range (d.nw k), m.A k i j * w.v k i
          = m.out.v (k + 1) (d.nu (k + 1) + j) + w.v (k + 1) (d.nu (k + 1) + j))
      ∧ (∀ k ≤ d.N, ∀ j < 2 * d.ni k, p.h k (m.out.v k) j + ∑ i ∈ range (d.nv k), m.G k i j * w.v k i ≤ 0)
      ∧ Compl d (fun k j => p.h k (m.out.v k) j + ∑ i ∈ range (d.nv k), m.G k i j * w.v k i) w.lam := by
  unfold Quad.Kkt
  refine and_congr (forall_congr' fun k => forall_congr' fun hk => forall_congr' fun i => forall_congr' fun hi => ?_)
    (and_congr (forall_congr' fun k => forall_congr' fun hk => forall_congr' fun j => forall_congr' fun hj => ?_) Iff.rfl)
  · have e1 := hess_mul d (levelC d p m) (H := H) hH w.v k i hi
    have e2 := levelC_g d p m k i
    have e3 : dynTerm d m.A (fun k j => w.pi k j - m.out.pi k j) k i = dynTerm d m.A w.pi k i - dynTerm d m.A m.out.pi k i := by
      unfold dynTerm
      simp only [mul_sub, sum_sub_distrib]
      split_ifs <;> ring
    have e4 : (quad d (levelC d p m)).g k i + ∑ j ∈ range (d.nv k), (quad d (levelC d p m)).H k i j * w.v k j
        + dynTerm d (quad d (levelC d p m)).A w.pi k i = (levelC d p m).g k i + hessTimes d H m.Z w.v k i + dynTerm d m.A w.pi k i := by
      show (levelC d p m).g k i + ∑ j ∈ range (d.nv k), hess d (levelC d p m) k i j * w.v k j + _ = _
      rw [e1]
      rfl
    rw [e4, e3]
    have e5 : (quad d (levelC d p m)).G = m.G := rfl
    rw [e5]
    constructor <;> intro h
    · linear_combination h - e2
    · linear_combination h + e2
  · show ∑ i ∈ range (d.nw k), m.A k i j * w.v k i + (p.phi k (m.out.v k) j - m.out.v (k + 1) (d.nu (k + 1) + j)) = _ ↔ _
    constructor <;> intro h
    · linear_combination h
    · linear_combination h

/-- **C96 (level B; partial: full steps, no slacks as demanded by the sanity check).** After preparation and feedback at an iterate with
the problem `p1`, and any number of level B iterations with the problem `p`, whatever the QP solver returned: no step is optimal for the next QP exactly if the
iterate satisfies the constraints of `p` and, with the given multipliers, the stationarity condition of the quadratic model made in the preparation. -/
theorem C96_levelB_partial (d : Dims) (hns : ∀ k ≤ d.N, d.ns k = 0) (p1 p : Nlp K) (hs H : Nat → Nat → Nat → K) (hH : LowerOf d hs H) (zs : Nat → Nat → K)
    (sol : Quad K → Point K) (full : Bool) (n : Nat) (m0 : Mem K) (pi lam : Nat → Nat → K) :
    let m := iter d sol 1 full (zeroOrder d p) n (feedback d p1 sol 1 full (linearize d p1 hs zs m0))
    (quad d (zeroOrder d p m)).Kkt d (noStep pi lam) ↔ ZeroOrderKkt d p1 p H m0.out.v ⟨m.out.v, pi, lam⟩ := by
  intro m
  obtain ⟨hL, hA, hG, _⟩ := iter_keeps d sol 1 full (zeroOrder d p) (fun _ => ⟨rfl, rfl, rfl, rfl⟩) n (feedback d p1 sol 1 full (linearize d p1 hs zs m0))
  have T : Tracks d (fun k => p1.grad k (m0.out.v k)) hs m0.out.v m := by
    refine tracks_iter d p sol full n (tracks_solve d sol full rfl fun k i _ => ?_)
    have : ∑ j ∈ range (d.nw k), sym (hs k) i j * (m0.out.v k j - m0.out.v k j) = 0 := sum_eq_zero fun j _ => by rw [sub_self, mul_zero]
    show p1.grad k (m0.out.v k) i = p1.grad k (m0.out.v k) i + ∑ j ∈ range (d.nw k), sym (hs k) i j * (m0.out.v k j - m0.out.v k j)
    rw [this, add_zero]
  rw [kkt_noStep]
  unfold ZeroOrderKkt
  rw [feasible_iff]
  refine and_congr (forall_congr' fun k => forall_congr' fun hk => forall_congr' fun i => forall_congr' fun hi => ?_) Iff.rfl
  have hv : d.nv k = d.nw k := by unfold Dims.nv Dims.nw; rw [hns k hk]; rfl
  rw [hv] at hi ⊢
  have e1 : (quad d (zeroOrder d p m)).g k i = _ := (tracks_zeroOrder d p T).2 k i hi
  rw [e1]
  have e2 : (quad d (zeroOrder d p m)).G = m.G := rfl
  have e3 : (quad d (zeroOrder d p m)).A = m.A := rfl
  have e4 : ∑ j ∈ range (d.nw k), sym (hs k) i j * (m.out.v k j - m0.out.v k j) = ∑ j ∈ range (d.nw k), H k i j * (m.out.v k j - m0.out.v k j) :=
    sum_congr rfl fun j hj => by rw [sym_lower hH hi (mem_range.1 hj)]
  rw [e2, e3, hG, hA, e4]
  exact Iff.rfl

/-- **C96 (level B): a fixed point is feasible.** -/
theorem C96_levelB_feasible (d : Dims) (p : Nlp K) (m : Mem K) (pi lam : Nat → Nat → K) (h : (quad d (zeroOrder d p m)).Kkt d (noStep pi lam)) :
    p.Feasible d m.out.v := by
  rw [kkt_noStep] at h
  rw [feasible_iff]
  exact h.2.1

/-- **C96 (logging; partial: linear constraints).** Computing residuals for the log leaves the QP, hence all later iterates, as they are. -/
theorem C96_log_partial (d : Dims) (p1 p : Nlp K) (hlin : ∀ k v v' i j, p1.dh k v i j = p.dh k v' i j) (hs : Nat → Nat → Nat → K) (zs : Nat → Nat → K)
    (sol : Quad K → Point K) (a : K) (full : Bool) (hc : Nat → (Nat → K) → (Nat → K) → Nat → Nat → K) (hz : ∀ k v l i j, hc k v l i j = 0) (n : Nat) (m0 : Mem K) :
    let m1 := feedback d p1 sol a full (linearize d p1 hs zs m0)
    (iter d sol a full (fun m => logResiduals p hc (zeroOrder d p m)) n m1).out = (iter d sol a full (zeroOrder d p) n m1).out
    ∧ (iter d sol a full (fun m => logResiduals p hc (levelC d p m)) n m1).out = (iter d sol a full (levelC d p) n m1).out := by
  intro m1
  have key : ∀ upd : Mem K → Mem K, (∀ m, (upd m).G = m.G ∧ (upd m).out = m.out) → (∀ m c, ∃ c', upd { m with costGrad := c } = { upd m with costGrad := c' }) →
      ∀ n (m m' : Mem K), (∃ c, m' = { m with costGrad := c }) → (m.G = fun k => p1.dh k (m0.out.v k)) →
      (iter d sol a full (fun m => logResiduals p hc (upd m)) n m').out = (iter d sol a full upd n m).out := by
    intro upd hu hcg n
    induction n with
    | zero => rintro m m' ⟨c, rfl⟩ _; rfl
    | succ n ih =>
      rintro m m' ⟨c, rfl⟩ hG
      unfold iter
      obtain ⟨c', hc'⟩ := hcg m c
      obtain ⟨h1, h2⟩ := hu m
      have hlog : ∃ c2, logResiduals p hc (upd { m with costGrad := c }) = { upd m with costGrad := c2 } := by
        refine ⟨fun k => p.grad k ((upd m).out.v k), ?_⟩
        rw [hc']
        unfold logResiduals
        have e1 : (fun k => p.dh k ((upd m).out.v k)) = (upd m).G := by
          rw [h1, hG]
          funext k i j
          exact (hlin k _ _ i j).symm
        have e2 : (fun k i j => (upd m).L k i j + hc k ((upd m).out.v k) ((upd m).out.lam k) i j) = (upd m).L := by
          funext k i j
          rw [hz, add_zero]
        rw [e1, e2]
      obtain ⟨c2, hlog⟩ := hlog
      refine ih _ _ ⟨c2, ?_⟩ ?_
      · rw [hlog]
        rfl
      · show (upd m).G = _
        rw [h1, hG]
  exact ⟨key (zeroOrder d p) (fun _ => ⟨rfl, rfl⟩) (fun m c => ⟨c, rfl⟩) n m1 m1 ⟨m1.costGrad, rfl⟩ rfl,
    key (levelC d p) (fun _ => ⟨rfl, rfl⟩) (fun m c => ⟨fun k => p.grad k (m.out.v k), rfl⟩) n m1 m1 ⟨m1.costGrad, rfl⟩ rfl⟩

omit [LinearOrder K] in
/-- **C96 (advancing; partial: bounds on all initial states in order).** With the bounds of the advanced problem the initial state is the next state
of the iterate, predicted or simulated. -/
theorem C96_advance_partial (d : Dims) (p : Nlp K) (m : Mem K) (lb : Nat → K) (x : Nat → K) :
    ((∀ i < d.nx 0, x i = advance d p .shift m (d.nx 0) lb i) ↔ ∀ i < d.nx 0, x i = m.out.v 1 (d.nu 1 + i))
    ∧ ((∀ i < d.nx 0, x i = advance d p .simulate m (d.nx 0) lb i) ↔ ∀ i < d.nx 0, x i = p.phi 0 (m.out.v 0) i) := by
  refine ⟨forall_congr' fun i => forall_congr' fun hi => ?_, forall_congr' fun i => forall_congr' fun hi => ?_⟩
  · unfold advance
    dsimp only
    rw [if_pos hi]
  · unfold advance dynFun
    dsimp only
    rw [if_pos hi, sub_add_cancel]

/-! ## Counterexamples -/

/-- one state, no control; `N = 1`, a constraint at the last stage -/
def dEx : Dims := ⟨1, fun _ => 1, fun _ => 0, fun _ => 0, fun k => if k = 1 then 1 else 0⟩

/-- next state `x`, gradient `-2` at the last stage, constraint `x² ≤ 1` -/
def pEx : Nlp ℚ where
  grad k _ _ := if k = 1 then -2 else 0
  phi _ v _ := v 0
  dphi _ _ _ _ := 1
  h _ v j := if j = 0 then v 0 * v 0 - 1 else -1
  dh _ v _ j := if j = 0 then 2 * v 0 else 0

/-- a memory with given iterate -/
def mEx (x : ℚ) : Mem ℚ :=
  ⟨fun _ _ _ => 0, fun _ _ => 0, fun _ _ _ => 0, fun _ _ _ => 0, fun _ _ => 0, fun _ _ => 0, fun _ _ => 0, fun _ _ => 0, fun _ _ => 0, fun _ _ => 0,
   ⟨fun _ _ => x, fun k _ => if k = 0 then -2 + 2 * x else 0, fun _ _ => 0⟩, fun _ _ => 0⟩

/-- **C96 is false: nonlinear constraints at the last stage pass the check of level C.** After a preparation at `x = 0` and a feedback step to `x = 1`, the
optimal solution, the QP of level C tells to leave it, whatever the multipliers. -/
theorem C96_terminal_false : sane dEx (fun k => if k = 1 then 1 else 0) .C = true
    ∧ ∃ (sol : Quad ℚ → Point ℚ) (m0 : Mem ℚ), let m := feedback dEx pEx sol 1 true (linearize dEx pEx (fun _ _ _ => 1) (fun _ _ => 0) m0)
      (∃ lam, pEx.Kkt dEx ⟨m.out.v, m.out.pi, lam⟩) ∧ ∀ pi lam, ¬ (quad dEx (levelC dEx pEx m)).Kkt dEx (noStep pi lam) := by
  refine ⟨by decide, fun _ => ⟨fun _ _ => 1, fun _ _ => 0, fun _ _ => 1⟩, mEx 0, ⟨fun k j => if k = 1 ∧ j = 0 then 1 else 0, ?_⟩, fun pi lam h => ?_⟩
  · have hk : ∀ k ≤ 1, k = 0 ∨ k = 1 := fun k hk => by omega
    refine ⟨fun k h i hi => ?_, ⟨fun k h j hj => ?_, fun k h j hj => ?_⟩, fun k h j hj => ?_⟩
    · have hi : i < 1 := hi
      have hi : i = 0 := by omega
      subst hi
      rcases hk k h with rfl | rfl <;> decide +kernel
    · have h : k < 1 := h
      have hj : j < 1 := hj
      have hk : k = 0 := by omega
      have hj' : j = 0 := by omega
      subst hk
      subst hj'
      decide +kernel
    · rcases hk k h with rfl | rfl
      · have hj : j < 0 := hj
        omega
      · have hj : j < 2 := hj
        rcases (by omega : j = 0 ∨ j = 1) with rfl | rfl <;> decide +kernel
    · rcases hk k h with rfl | rfl
      · have hj : j < 0 := hj
        omega
      · have hj : j < 2 := hj
        rcases (by omega : j = 0 ∨ j = 1) with rfl | rfl <;> decide +kernel
  · have h := ((kkt_noStep _ _ _ _).1 h).1
    have h0 := h 0 (by decide) 0 (by decide)
    have h1 := h 1 (by decide) 0 (by decide)
    simp [quad, levelC, dynTerm, dynAdj, feedback, solve, vectors, linearize, dEx, pEx, mEx, Dims.nw] at h0 h1
    linarith

/-- the problem without constraint, cost `x²` at both stages -/
def pFree : Nlp ℚ := { pEx with grad := fun _ v _ => 2 * v 0, h := fun _ _ _ => -1, dh := fun _ _ _ _ => 0 }

/-- **C96 is false with shorter steps.** From `x = 1` half a step leads to `x = 1/2`, with the exact Hessian; the gradient of the level B
QP there is `0` instead of the gradient `1` of the quadratic model, so that the iteration stops there. -/
theorem C96_step_false : ∃ (sol : Quad ℚ → Point ℚ) (m0 : Mem ℚ),
    let m := feedback dEx pFree sol (1 / 2) true (linearize dEx pFree (fun _ _ _ => 2) (fun _ _ => 0) m0)
    (quad dEx (vectors pFree (linearize dEx pFree (fun _ _ _ => 2) (fun _ _ => 0) m0))).Kkt dEx (sol (quad dEx (vectors pFree (linearize dEx pFree (fun _ _ _ => 2) (fun _ _ => 0) m0))))
    ∧ ∃ pi lam, (quad dEx (zeroOrder dEx pFree m)).Kkt dEx (noStep pi lam)
      ∧ ¬ ZeroOrderKkt dEx pFree pFree (fun _ _ _ => 2) m0.out.v ⟨m.out.v, pi, lam⟩ := by
  have hk : ∀ k ≤ 1, k = 0 ∨ k = 1 := fun k hk => by omega
  refine ⟨fun _ => ⟨fun _ _ => -1, fun _ _ => 0, fun _ _ => 0⟩, mEx 1, ?_, fun _ _ => 0, fun _ _ => 0, ?_, fun h => ?_⟩
  · refine ⟨fun k h i hi => ?_, fun k h j hj => ?_, fun k h j hj => ?_, fun k h j hj => ?_⟩
    · have hi : i < 1 := hi
      have hi : i = 0 := by omega
      subst hi
      rcases hk k h with rfl | rfl <;> decide +kernel
    · have h : k < 1 := h
      have hj : j < 1 := hj
      have hk : k = 0 := by omega
      have hj' : j = 0 := by omega
      subst hk
      subst hj'
      decide +kernel
    · rcases hk k h with rfl | rfl
      · have hj : j < 0 := hj
        omega
      · have hj : j < 2 := hj
        rcases (by omega : j = 0 ∨ j = 1) with rfl | rfl <;> decide +kernel
    · rcases hk k h with rfl | rfl
      · have hj : j < 0 := hj
        omega
      · have hj : j < 2 := hj
        rcases (by omega : j = 0 ∨ j = 1) with rfl | rfl <;> decide +kernel
  · rw [kkt_noStep]
    refine ⟨fun k h i hi => ?_, ⟨fun k h j hj => ?_, fun k h j hj => ?_⟩, fun k h j hj => ?_⟩
    · have hi : i < 1 := hi
      have hi : i = 0 := by omega
      subst hi
      rcases hk k h with rfl | rfl <;> decide +kernel
    · have h : k < 1 := h
      have hj : j < 1 := hj
      have hk : k = 0 := by omega
      have hj' : j = 0 := by omega
      subst hk
      subst hj'
      decide +kernel
    · rcases hk k h with rfl | rfl
      · have hj : j < 0 := hj
        omega
      · have hj : j < 2 := hj
        rcases (by omega : j = 0 ∨ j = 1) with rfl | rfl <;> decide +kernel
    · rcases hk k h with rfl | rfl
      · have hj : j < 0 := hj
        omega
      · have hj : j < 2 := hj
        rcases (by omega : j = 0 ∨ j = 1) with rfl | rfl <;> decide +kernel
  · have h0 := h.1 0 (by decide) 0 (by decide)
    revert h0
    decide +kernel

/-- **C96 is false: logging residuals in level B changes the QP.** With a nonlinear constraint and its exact Hessian the Jacobian and the
Hessian of the QP change with every logged iteration, and with them the gradient of the next QP. -/
theorem C96_log_false : ∃ (hc : Nat → (Nat → ℚ) → (Nat → ℚ) → Nat → Nat → ℚ) (sol : Quad ℚ → Point ℚ) (m0 : Mem ℚ),
    (∀ k v l i j, hc k v l i j = if k = 1 then 2 * l 0 else 0)
    ∧ let m1 := feedback dEx pEx sol 1 true (linearize dEx pEx (fun _ _ _ => 1) (fun _ _ => 0) m0)
      let m := solve dEx sol 1 true (zeroOrder dEx pEx m1)
      let m' := solve dEx sol 1 true (logResiduals pEx hc (zeroOrder dEx pEx m1))
      m.out.v = m'.out.v ∧ (zeroOrder dEx pEx m).g 1 0 ≠ (zeroOrder dEx pEx m').g 1 0 ∧ (zeroOrder dEx pEx m).G 1 0 0 ≠ (zeroOrder dEx pEx m').G 1 0 0 :=
  ⟨fun k _ l _ _ => if k = 1 then 2 * l 0 else 0, fun _ => ⟨fun _ _ => 1, fun _ _ => 0, fun _ _ => 1⟩, mEx 0, fun _ _ _ _ _ => rfl, rfl,
    by decide +kernel, by decide +kernel⟩

/-- **C96 is false if not all initial states are bounded in order.** With the second of two states bounded the bound of the advanced
problem is the first entry of the next state. -/
theorem C96_advance_false : ∃ (d : Dims) (p : Nlp ℚ) (m : Mem ℚ) (idxbx : Nat → Nat), sane d (fun _ => 0) .A = true ∧ idxbx 0 < d.nx 0
    ∧ advance d p .shift m 1 (fun _ => 0) 0 ≠ m.out.v 1 (d.nu 1 + idxbx 0) :=
  ⟨{ dEx with nx := fun _ => 2 }, pEx, { mEx 0 with out := ⟨fun _ i => i, fun _ _ => 0, fun _ _ => 0⟩ }, fun _ => 1, by decide, by decide, by decide +kernel⟩

/-! ## Examples -/

/-- linear constraints: the hypothesis of `C96_levelC_partial` and `C96_log_partial` is met, and a solution exists -/
example : (∀ k ≤ dEx.N, ∀ v v' i j, pFree.dh k v i j = pFree.dh k v' i j)
    ∧ pFree.Kkt dEx ⟨fun _ _ => 0, fun _ _ => 0, fun _ _ => 0⟩ := by
  refine ⟨fun _ _ _ _ _ _ => rfl, fun k h i hi => ?_, ⟨fun k h j hj => rfl, fun k h j hj => ?_⟩, fun k h j hj => ⟨le_refl _, zero_mul _⟩⟩
  · have hi : i < 1 := hi
    have hi : i = 0 := by omega
    subst hi
    rcases (by have : k ≤ 1 := h; omega : k = 0 ∨ k = 1) with rfl | rfl <;> decide +kernel
  · show (-1 : ℚ) ≤ 0
    norm_num

/-- no slacks: the hypothesis of `C96_levelB_partial` is met, and the sanity check passes -/
example : (∀ k ≤ dEx.N, dEx.ns k = 0) ∧ LowerOf dEx (fun _ i j => if j ≤ i then (i + j : ℚ) else 7) (fun _ i j => i + j) ∧ sane dEx (fun _ => 0) .B = true ∧ sane dEx (fun _ => 0) .A = true := 
  ⟨fun _ _ => rfl, fun _ i j _ _ => ⟨add_comm _ _, fun h => if_pos h⟩, by decide, by decide⟩

end Acados.AsRti
