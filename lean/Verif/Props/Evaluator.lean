import Verif.Lemmas.Evaluator
/-!
# C92: cost and constraint evaluator
-/
namespace Acados.Evaluator
variable {K X U P : Type} [Field K] [LinearOrder K] [IsStrictOrderedRing K]

/-- the constraint with index `i` of one of the four kinds is not softened -/
def Hard (s : Stage P K) (c : Con P K) : Prop :=
  ∃ g : Group P K, (g = s.bu ∨ g = s.bx ∨ g = s.g ∨ g = s.h) ∧ ∃ i, g.cons[i]? = some c ∧ i ∉ g.idxs

theorem hard_iff (s : Stage P K) (h : s.WF) (p : P) :
    (∀ v ∈ s.hardViol p, v = 0) ↔ ∀ c, Hard s c → c.lb ≤ c.fn p ∧ c.fn p ≤ c.ub := by
  rw [hard_all, hard_split s h (fun c => c.lb ≤ c.fn p ∧ c.fn p ≤ c.ub)]
  constructor
  · rintro hq c ⟨g, hg, i, hc, hi⟩
    exact hq g hg i c hc hi
  · intro hq g hg i c hc hi
    exact hq c ⟨g, hg, i, hc, hi⟩

/-- evaluation at a stage: the cost is the scaled sum of cost and least penalty of the slacks with which the softened constraints hold, the
slacks are reported, the reported violations of the other constraints are zero exactly if they hold -/
theorem C92_evaluate {np : Nat} (e : Ev np X U K) (h : e.stage.WF) (hz : ∀ l ∈ [e.stage.zl, e.stage.Zl, e.stage.zu, e.stage.Zu], ∀ a ∈ l, 0 ≤ a)
    (x : X) (u : U) (step : Nat) (hs : step < e.N) (given : Option (Nat → (Fin np → K))) :
    ∃ o c, e.evaluate x u step given = some o
      ∧ IsLeast (Penalties (e.stage.soft (x, u, (given.getD e.cols) step))) c
      ∧ o.costNoSlacks = e.scal step * e.cost (x, u, (given.getD e.cols) step)
      ∧ o.costSlacks = e.scal step * c ∧ o.cost = o.costNoSlacks + o.costSlacks
      ∧ o.soft = e.stage.softCons.map (fun q => max (q.lb - q.fn (x, u, (given.getD e.cols) step)) 0)
          ++ e.stage.softCons.map (fun q => max (q.fn (x, u, (given.getD e.cols) step) - q.ub) 0)
      ∧ ((∀ v ∈ o.hard, v = 0) ↔ ∀ q, Hard e.stage q → q.lb ≤ q.fn (x, u, (given.getD e.cols) step) ∧ q.fn (x, u, (given.getD e.cols) step) ≤ q.ub) := by
  have hn : ¬ ((0 < np ∧ np * e.N ≤ step) ∨ e.N < step) := by
    rintro (⟨h1, h2⟩ | h1)
    · have := Nat.le_mul_of_pos_left e.N h1
      omega
    · omega
  refine ⟨_, least (e.stage.soft (x, u, (given.getD e.cols) step)), by unfold Ev.evaluate; rw [if_neg hn], ?_, ?_, ?_, rfl, ?_, ?_⟩
  · exact least_isLeast _ (softs_weights _ _ _ _ _ _ (hz _ (by simp)) (hz _ (by simp)) (hz _ (by simp)) (hz _ (by simp)))
  · exact mul_comm _ _
  · show _ * _ = _
    rw [stage_slack _ h]
    exact mul_comm _ _
  · show e.stage.lowerSlack _ ++ e.stage.upperSlack _ = _
    unfold Stage.lowerSlack Stage.upperSlack
    rw [slack_map _ h (fun c => lowerViol c _), slack_map _ h (fun c => upperViol c _)]
    rfl
  · exact hard_iff _ h _

/-- after `update_all` the parameters of a stage are those of the solver, given parameters are used as given -/
theorem C92_parameters {np : Nat} (e : Ev np X U K) (sol g : Nat → (Fin np → K)) (x : X) (u : U) (step : Nat) (hs : step < e.N) :
    ((e.updateAll sol).evaluate x u step none = e.evaluate x u step (some sol))
    ∧ ∀ o, e.evaluate x u step (some g) = some o → o.costNoSlacks = e.scal step * e.cost (x, u, g step) := by
  constructor
  · unfold Ev.evaluate Ev.updateAll
    simp only [Option.getD_none, Option.getD_some, if_pos hs]
  · intro o ho
    unfold Ev.evaluate at ho
    split at ho
    · cases ho
    · cases ho
      exact mul_comm _ _

/-- before, with one parameter, they are those of the problem -/
theorem C92_default_partial (pv : Fin 1 → K) (j : Nat) : tile pv j = pv := by
  funext i
  unfold tile
  congr 1
  exact Subsingleton.elim _ _

/-- with two parameters `(1, 2)` the first stage has `(1, 1)`, the second `(2, 2)` -/
theorem C92_default_false : ∃ pv : Fin 2 → ℚ, pv 0 = 1 ∧ pv 1 = 2 ∧ tile pv 0 ≠ pv ∧ ∀ j, tile pv j ≠ pv := by
  refine ⟨fun i => if i = 0 then 1 else 2, by decide, by decide, ?_, ?_⟩
  · intro h
    have := congrFun h 1
    revert this
    decide +kernel
  · intro j h
    have h0 := congrFun h 0
    have h1 := congrFun h 1
    have e : tile (K := ℚ) (fun i : Fin 2 => if i = 0 then 1 else 2) j 0 = tile (fun i : Fin 2 => if i = 0 then 1 else 2) j 1 := rfl
    rw [h0, h1] at e
    revert e
    decide +kernel

/-- stages `k .. k + n - 1` -/
theorem pathCost_eq {np : Nat} (e : Ev np X U K) (h : e.stage.WF) (x : Nat → X) (u : Nat → U) (n k : Nat) (hk : k + n ≤ e.N) :
    e.pathCost k ((List.range n).map fun i => (x (k + i), u (k + i)))
      = some (∑ i ∈ Finset.range n, e.scal (k + i) * (e.cost (x (k + i), u (k + i), e.cols (k + i)) + least (e.stage.soft (x (k + i), u (k + i), e.cols (k + i))))) := by
  induction n generalizing k with
  | zero => rfl
  | succ n ih =>
    rw [List.range_succ_eq_map, List.map_cons, List.map_map, Ev.pathCost]
    have hn : ¬ ((0 < np ∧ np * e.N ≤ k) ∨ e.N < k) := by
      rintro (⟨h1, h2⟩ | h1)
      · have := Nat.le_mul_of_pos_left e.N h1
        omega
      · omega
    have e1 : ((fun i => (x (k + i), u (k + i))) ∘ Nat.succ) = fun i => (x (k + 1 + i), u (k + 1 + i)) := by
      funext i
      show (x (k + (i + 1)), u (k + (i + 1))) = _
      rw [show k + (i + 1) = k + 1 + i by omega]
    rw [e1, ih (k + 1) (by omega)]
    unfold Ev.evaluate
    rw [if_neg hn]
    dsimp only [Nat.add_zero]
    rw [Option.map_some, Finset.sum_range_succ', Option.getD_none, stage_slack _ h]
    congr 1
    rw [add_comm]
    congr 1
    · refine Finset.sum_congr rfl fun i _ => ?_
      rw [show k + 1 + i = k + (i + 1) by omega]
    · rw [Nat.add_zero]
      ring

/-- cost of a trajectory: with at most one parameter, updated from the solver, the same parameters at the last two stages, terminal scaling
one, an initial stage with the cost of the path and without slacks, and at most one terminal slack, it is the sum over the stages of the
scaled cost with the least penalties -/
theorem C92_total_partial {np : Nat} (hnp : np ≤ 1) (e0 : Ev np X U K) (sol : Nat → (Fin np → K)) (h : e0.stage.WF) (hE : e0.stageE.WF)
    (hN : 0 < e0.N) (hlast : sol e0.N = sol (e0.N - 1)) (hscal : e0.scal e0.N = 1)
    (L0 : X × U × (Fin np → K) → K) (hL0 : L0 = e0.cost) (pen0 : X × U × (Fin np → K) → K) (hpen : pen0 = fun _ => 0)
    (hone : e0.stageE.slackIdx.length ≤ 1) (x : Nat → X) (u : Nat → U) :
    (e0.updateAll sol).ocpCost ((List.range (e0.N + 1)).map x) ((List.range e0.N).map u) none
      = some (∑ k ∈ Finset.range e0.N, e0.scal k * (if k = 0 then L0 (x k, u k, sol k) + pen0 (x k, u k, sol k)
            else e0.cost (x k, u k, sol k) + least (e0.stage.soft (x k, u k, sol k)))
          + e0.scal e0.N * (e0.costE (x e0.N, sol e0.N) + least (e0.stageE.soft (x e0.N, sol e0.N)))) := by
  obtain ⟨m, hm⟩ : ∃ m, e0.N = m + 1 := ⟨e0.N - 1, by omega⟩
  have hcols : ∀ k < e0.N, (e0.updateAll sol).cols k = sol k := fun k hk => by
    show (if k < e0.N then sol k else e0.cols k) = _
    rw [if_pos hk]
  have hz : ((List.range (m + 1)).map (x ∘ Nat.succ)).zip ((List.range m).map (u ∘ Nat.succ)) = (List.range m).map fun i => (x (1 + i), u (1 + i)) := by
    apply List.ext_getElem
    · simp
    · intro i h1 h2
      rw [List.getElem_zip, List.getElem_map, List.getElem_map, List.getElem_map, List.getElem_range, List.getElem_range]
      simp only [Function.comp, Nat.succ_eq_add_one, Nat.add_comm 1 i]
  have hp := pathCost_eq (e0.updateAll sol) h x u m 1 (by show 1 + m ≤ e0.N; omega)
  have hlastx : (x 0 :: (List.range (m + 1)).map (x ∘ Nat.succ)).getLast? = some (x (m + 1)) := by
    rw [show x 0 :: (List.range (m + 1)).map (x ∘ Nat.succ) = (List.range (m + 2)).map x by
      rw [List.range_succ_eq_map (n := m + 1), List.map_cons, List.map_map]]
    rw [List.range_succ, List.map_append]
    simp
  have hcolE : (e0.updateAll sol).cols (np * (e0.updateAll sol).N - 1) = sol e0.N := by
    rcases Nat.lt_or_ge 0 np with h1 | h1
    · have : np = 1 := by omega
      subst this
      rw [show 1 * (e0.updateAll sol).N - 1 = e0.N - 1 by rw [Nat.one_mul]; rfl, hcols _ (by omega), hlast]
    · have : np = 0 := by omega
      subst this
      funext i
      exact i.elim0
  have hse : ∀ (a : X × (Fin np → K)), slackCostE e0.stageE.Zl e0.stageE.zl (e0.stageE.lowerSlack a) = some (slackCost e0.stageE.Zl e0.stageE.zl (e0.stageE.lowerSlack a))
      ∧ slackCostE e0.stageE.Zu e0.stageE.zu (e0.stageE.upperSlack a) = some (slackCost e0.stageE.Zu e0.stageE.zu (e0.stageE.upperSlack a)) := by
    intro a
    have l1 : (e0.stageE.lowerSlack a).length = e0.stageE.slackIdx.length := List.length_map _
    have l2 : (e0.stageE.upperSlack a).length = e0.stageE.slackIdx.length := List.length_map _
    unfold slackCostE
    constructor
    · rw [if_neg]
      rintro ⟨h1, h2⟩
      have := List.length_pos_iff.2 h1
      have := hE.Zl
      omega
    · rw [if_neg]
      rintro ⟨h1, h2⟩
      have := List.length_pos_iff.2 h1
      have := hE.Zu
      omega
  have hxs : (List.range (m + 1 + 1)).map x = x 0 :: (List.range (m + 1)).map (x ∘ Nat.succ) := by
    rw [List.range_succ_eq_map (n := m + 1), List.map_cons, List.map_map]
  have hus : (List.range (m + 1)).map u = u 0 :: (List.range m).map (u ∘ Nat.succ) := by
    rw [List.range_succ_eq_map (n := m), List.map_cons, List.map_map]
  rw [hm, hxs, hus]
  unfold Ev.ocpCost
  have hev : ∃ o, (e0.updateAll sol).evaluate (x 0) (u 0) 0 none = some o ∧ o.costNoSlacks = e0.cost (x 0, u 0, sol 0) * e0.scal 0 := by
    refine ⟨_, by
      unfold Ev.evaluate
      rw [if_neg]
      rintro (⟨h1, h2⟩ | h1)
      · have h2 : np * e0.N ≤ 0 := h2
        have := Nat.mul_pos h1 hN
        omega
      · omega, ?_⟩
    show e0.cost (x 0, u 0, (e0.updateAll sol).cols 0) * e0.scal 0 = _
    rw [hcols 0 hN]
  obtain ⟨o, hev, ho⟩ := hev
  dsimp only
  rw [hz, hp, hlastx, hev]
  dsimp only
  rw [Option.getD_none, hcolE]
  have hse' := hse (x (m + 1), sol e0.N)
  have eS : (e0.updateAll sol).stageE = e0.stageE := rfl
  rw [eS, hse'.1, hse'.2]
  dsimp only
  rw [stage_slack _ hE, ← hm, hscal, one_mul, hm, Finset.sum_range_succ' (n := m), if_pos rfl, hL0, hpen]
  have esum : ∑ i ∈ Finset.range m, (e0.updateAll sol).scal (1 + i) * ((e0.updateAll sol).cost (x (1 + i), u (1 + i), (e0.updateAll sol).cols (1 + i))
        + least ((e0.updateAll sol).stage.soft (x (1 + i), u (1 + i), (e0.updateAll sol).cols (1 + i))))
      = ∑ k ∈ Finset.range m, e0.scal (k + 1) * (if k + 1 = 0 then e0.cost (x (k + 1), u (k + 1), sol (k + 1)) + 0
          else e0.cost (x (k + 1), u (k + 1), sol (k + 1)) + least (e0.stage.soft (x (k + 1), u (k + 1), sol (k + 1)))) := by
    refine Finset.sum_congr rfl fun i hi => ?_
    have hi := Finset.mem_range.1 hi
    rw [if_neg (by omega), hcols (1 + i) (by omega), Nat.add_comm 1 i]
    rfl
  rw [esum, ho]
  show some (_ + _ + e0.costE _ + _) = _
  congr 1
  ring

/-- cost state: its derivative is the cost with the penalties of doubled quadratic weights -/
theorem C92_cost_state (cost : P → K) (s : Stage P K) (h : s.WF) (p : P) :
    costDot cost s p = cost p + least (softs s.softCons s.zl (s.Zl.map (2 * ·)) s.zu (s.Zu.map (2 * ·)) p) := costDot_eq cost s h p

/-- so without quadratic weights it is the cost of the problem -/
theorem C92_cost_state_partial (cost : P → K) (s : Stage P K) (h : s.WF) (h1 : ∀ a ∈ s.Zl, a = 0) (h2 : ∀ a ∈ s.Zu, a = 0) (p : P) :
    costDot cost s p = cost p + least (s.soft p) := by
  rw [costDot_eq cost s h]
  have e : ∀ l : List K, (∀ a ∈ l, a = 0) → l.map (2 * ·) = l := by
    intro l hl
    conv_rhs => rw [← List.map_id l]
    refine List.map_congr_left fun a ha => ?_
    rw [hl a ha]
    simp
  rw [e _ h1, e _ h2]
  rfl

/-! ### examples -/

/-- control `u` at most `1`, softened; state at most `2`, hard; a nonlinear constraint, softened -/
def exStage : Stage (ℚ × ℚ × (Fin 1 → ℚ)) ℚ :=
  { bu := ⟨[⟨fun a => a.2.1, -1, 1⟩], [0]⟩, bx := ⟨[⟨fun a => a.1, -2, 2⟩], []⟩, g := ⟨[], []⟩,
    h := ⟨[⟨fun a => a.1 * a.2.1 + a.2.2 0, 0, 4⟩, ⟨fun a => a.1, 0, 5⟩], [1]⟩,
    zl := [1, 1], Zl := [2, 2], zu := [3, 1], Zu := [4, 0] }

def exStageE : Stage (ℚ × (Fin 1 → ℚ)) ℚ :=
  { bu := ⟨[], []⟩, bx := ⟨[⟨fun a => a.1, -2, 2⟩], [0]⟩, g := ⟨[], []⟩, h := ⟨[], []⟩, zl := [1], Zl := [2], zu := [3], Zu := [4] }

def exEv : Ev 1 ℚ ℚ ℚ := ⟨2, tile (fun _ => 7), fun a => a.1 + a.2.2 0, fun a => a.1 + a.2 0, exStage, exStageE, fun k => if k = 2 then 1 else 1 / 2⟩

example : exStage.WF := ⟨by decide, by decide, by decide, by decide, rfl, rfl, rfl, rfl⟩
example : exStageE.WF := ⟨by decide, by decide, by decide, by decide, rfl, rfl, rfl, rfl⟩

/-- at `x = 3`, `u = 2`: slacks of the control `1`, hard violations of the state and the first nonlinear constraint -/
example : (exEv.evaluate 3 2 0 none).map (fun o => (o.cost, o.costNoSlacks, o.costSlacks, o.soft, o.hard))
    = some (15 / 2, 5, 5 / 2, [0, 0, 1, 0], [0, 0, 1, 9]) := by decide +kernel

example : exEv.ocpCost [3, 1, 3] [2, 2] none = some (5 + (4 + 5 / 2) + 10 + 5) := by decide +kernel

/-- the cost of a trajectory is not that of the problem in general: parameters given are ignored but for the terminal stage (all stages
have parameter `0`, the result is that of parameter `7`), the terminal scaling is ignored, two terminal slacks raise an error -/
theorem C92_total_false :
    (exEv.ocpCost [0, 0, 0] [0, 0] (some fun _ _ => 0) = some 7)
    ∧ ({ exEv with scal := fun _ => 2, cols := fun _ _ => 1 } : Ev 1 ℚ ℚ ℚ).ocpCost [0, 0, 0] [0, 0] none = some (2 + 2 + 1)
    ∧ ({ exEv with stageE := { exStageE with bx := ⟨[⟨fun a => a.1, -2, 2⟩, ⟨fun a => a.1, -2, 2⟩], [0, 1]⟩, zl := [1, 1], Zl := [2, 2], zu := [3, 3], Zu := [4, 4] } } :
        Ev 1 ℚ ℚ ℚ).ocpCost [0, 0, 0] [0, 0] none = none := by decide +kernel

/-- the terminal cost uses the parameters of the stage before: the solver has parameter `9` at the terminal stage and `0` at the others -/
theorem C92_terminal_parameters_false :
    (exEv.updateAll fun k _ => if k = 2 then 9 else 0).ocpCost [0, 0, 0] [0, 0] none = some 0 := by decide +kernel

/-- the cost state counts a quadratic penalty twice: at `u = 2` the slack is `1`, the penalty `3 + 4 / 2`, the cost state gets `3 + 4` -/
theorem C92_cost_state_false : costDot (fun _ => 0) exStage (1, 2, fun _ => 0) = 7 ∧ least (exStage.soft (1, 2, fun _ => 0)) = 5 := by decide +kernel

end Acados.Evaluator
