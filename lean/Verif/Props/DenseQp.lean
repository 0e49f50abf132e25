import Verif.Lemmas.DenseQp4
import Mathlib.Tactic.NormNum
import Mathlib.Tactic.IntervalCases
/-!
# Properties of the dense QP transformations (C48)

A dense QP with slack variables is rewritten for qpOASES as a QP without slacks; its solution is translated
back.  `Spec/DenseQp.lean` says what a feasible point, the objective and the optimality conditions of the
original QP are.
-/
namespace Acados.DenseQp
open Finset

section
variable {K : Type*} [Field K] [LinearOrder K] [IsStrictOrderedRing K]

/-- The slacks of every dense QP with consistent index data can be stacked: no assertion fails, the new QP has
no slack variables, all old variables and slacks are variables of the new QP, and the objective is the same. -/
theorem C48_objective (q old : DQp K) (hq : WF q) (hns : 0 < q.ns) :
    ∃ q2, stack q (stackDims q old) = some q2 ∧ q2.ns = 0 ∧ q2.nv = q.nv + 2 * q.ns ∧
      ∀ v, obj q2 v = obj q v := by
  obtain ⟨q2, h, S, _⟩ := stack_stacked q old hq hns
  exact ⟨q2, h, S.ns, S.nv, S.obj_eq⟩

/-- Every point the stacked QP admits satisfies the original constraints, if hard bounds are listed by
variable (`idxb[j] = j`) and lower bounds of slacks are nonnegative.  Both conditions are needed, see
`C48_hard_bound_counterexample` and `C48_negative_slack_counterexample`. -/
theorem C48_stacked_feasible_partial (q old q2 : DQp K) (hq : WF q) (hns : 0 < q.ns)
    (hid : ∀ j, j < q.nb → q.idxsRev j = -1 → q.idxb j = j) (hls : ∀ t, t < 2 * q.ns → 0 ≤ slb q t)
    (h : stack q (stackDims q old) = some q2) (v : Nat → K) (hf : Feasible (unmasked q2) v) : Feasible q v := by
  obtain ⟨q2', h', S, _⟩ := stack_stacked q old hq hns
  obtain rfl : q2' = q2 := Option.some.inj (h'.symm.trans h)
  exact S.sound hq hns hid hls v hf

/-- The stacked QP has the same minimum: for every admissible point of the original QP there is an admissible
point of the stacked QP with the same variables and at most the same cost. -/
theorem C48_same_minimum_partial (q old q2 : DQp K) (hq : WF q) (hns : 0 < q.ns)
    (hid : ∀ j, j < q.nb → q.idxsRev j = -1 → q.idxb j = j) (hm : ∀ i, q.mask i = 1)
    (h0 : ∀ t, t < 2 * q.ns → slb q t = 0)
    (hlu : ∀ i, i < q.nb + q.ng → q.idxsRev i ≠ -1 → lo q i ≤ up q i)
    (hZ : ∀ t, t < 2 * q.ns → 0 ≤ q.Z t ∧ 0 ≤ q.gz (q.nv + t))
    (h : stack q (stackDims q old) = some q2) (v : Nat → K) (hf : Feasible q v)
    (hcap : ∀ t, t < 2 * q.ns → v (q.nv + t) ≤ 1000000) :
    ∃ w, Feasible (unmasked q2) w ∧ (∀ j, j < q.nv → w j = v j) ∧ obj q2 w ≤ obj q v := by
  obtain ⟨q2', h', S, _⟩ := stack_stacked q old hq hns
  obtain rfl : q2' = q2 := Option.some.inj (h'.symm.trans h)
  have hx : ∀ j, j < q.nv → minSlack q v j = v j := fun j hj => by unfold minSlack; rw [if_pos hj]
  refine ⟨minSlack q v, S.complete hq hns hid hm h0 hlu v hf hcap, hx, ?_⟩
  rw [S.obj_eq]
  exact obj_mono hZ _ _ hx (minSlack_le S hq hns hm h0 v hf)

/-- a minimiser over the feasible points whose slacks stay below the bound that stacking adds -/
def IsMin (q : DQp K) (v : Nat → K) : Prop :=
  Feasible q v ∧ ∀ w, Feasible q w → (∀ t, t < 2 * q.ns → w (q.nv + t) ≤ 1000000) → obj q v ≤ obj q w

/-- Every solution of the stacked QP solves the original QP. -/
theorem C48_solution_partial (q old q2 : DQp K) (hq : WF q) (hns : 0 < q.ns)
    (hid : ∀ j, j < q.nb → q.idxsRev j = -1 → q.idxb j = j) (hm : ∀ i, q.mask i = 1)
    (h0 : ∀ t, t < 2 * q.ns → slb q t = 0)
    (hlu : ∀ i, i < q.nb + q.ng → q.idxsRev i ≠ -1 → lo q i ≤ up q i)
    (hZ : ∀ t, t < 2 * q.ns → 0 ≤ q.Z t ∧ 0 ≤ q.gz (q.nv + t))
    (h : stack q (stackDims q old) = some q2) (v : Nat → K) (hf : Feasible (unmasked q2) v)
    (hopt : ∀ w, Feasible (unmasked q2) w → obj q2 v ≤ obj q2 w) : IsMin q v := by
  have hobj : ∀ v, obj q2 v = obj q v := by
    obtain ⟨q2', h', S, _⟩ := stack_stacked q old hq hns
    obtain rfl : q2' = q2 := Option.some.inj (h'.symm.trans h)
    exact S.obj_eq
  refine ⟨C48_stacked_feasible_partial q old q2 hq hns hid (fun t ht => (h0 t ht).ge) h v hf, fun w hw hcap => ?_⟩
  obtain ⟨w', a, _, b⟩ := C48_same_minimum_partial q old q2 hq hns hid hm h0 hlu hZ h w hw hcap
  rw [← hobj v]
  exact (hopt w' a).trans b

omit [IsStrictOrderedRing K] in
theorem WF.setH {q : DQp K} (hq : WF q) (H : Nat → Nat → K) : WF { q with H := H } :=
  ⟨hq.idxb, hq.rev, hq.once, hq.used⟩

/-- Whatever solution qpOASES returns for the data it is given, the variables, slacks and multipliers handed
back satisfy the optimality conditions of the original QP (Hessian read from its lower triangle).  Assumed of
the data: no equality constraints, all constraints active, distinct bounded variables, hard bounds listed by
variable, soft bounds listed in the order of their slacks, slacks bounded by zero with nonnegative cost.
Assumed of the solution: it does not touch the artificial bounds. -/
theorem C48_qpoases_kkt_partial (big : K) (q old : DQp K) (a : QArgs K) (ha : qpoasesArgs big q old = some a)
    (hq : WF q) (hne : q.ne = 0) (hm : ∀ i, q.mask i = 1)
    (hinj : ∀ i, i < q.nb → ∀ j, j < q.nb → q.idxb i = q.idxb j → i = j)
    (hid : 0 < q.ns → ∀ j, j < q.nb → q.idxsRev j = -1 → q.idxb j = j)
    (hs : ∀ i, i < q.nb → ∀ j, j < q.nb → q.idxsRev i ≠ -1 → q.idxsRev j ≠ -1 → i < j → slackOf q i < slackOf q j)
    (hZ : ∀ t, t < 2 * q.ns → 0 ≤ q.Z t ∧ 0 ≤ q.gz (q.nv + t)) (h0 : ∀ t, t < 2 * q.ns → slb q t = 0)
    (x y : Nat → K) (hx : ∀ j, j < q.nv → -big < x j ∧ x j < big)
    (hcap : ∀ t, t < 2 * q.ns → x (q.nv + t) < 1000000) (hsol : QSol a x y) :
    Kkt { q with H := fillUpper q.nv q.H } x (qpoasesLam q y) := by
  have hq' := hq.setH (fillUpper q.nv q.H)
  unfold qpoasesArgs at ha
  by_cases hns : q.ns > 0
  · obtain ⟨q2, h', S, _⟩ := stack_stacked { q with H := fillUpper q.nv q.H } old hq' hns
    simp only [if_pos hns, h', Option.map_some, Option.some.injEq] at ha
    subst ha
    exact kkt_soft big S hq' hns hne hm hs (hid hns) hinj hZ h0 x y hx hcap hsol
  · simp only [if_neg hns, Option.some.injEq] at ha
    subst ha
    exact kkt_hard big hq' (by change q.ns = 0; omega) hne hm hinj x y hx hsol

/-- The optimality conditions imply a global minimum if the Hessian is symmetric positive semidefinite (no equality
multipliers appear in `Kkt`: they are not returned). -/
theorem C48_kkt_optimal (q : DQp K) (hq : WF q) (hm : ∀ i, q.mask i = 1)
    (hsym : ∀ i, i < q.nv → ∀ j, j < q.nv → q.H i j = q.H j i)
    (hpsd : ∀ d : Nat → K, 0 ≤ ∑ i ∈ range q.nv, ∑ j ∈ range q.nv, q.H i j * d i * d j)
    (hZ : ∀ t, t < 2 * q.ns → 0 ≤ q.Z t) (v lam : Nat → K) (hk : Kkt q v lam) (w : Nat → K) (hw : Feasible q w) :
    obj q v ≤ obj q w := kkt_optimal q hq hm hsym hpsd hZ v lam hk w hw

/-! ## Concrete cases -/

/-- arrays from lists -/
def vec (l : List ℚ) : Nat → ℚ := fun i => l.getD i 0

/-- two variables with bounds, the second softened: `0 ≤ x0 ≤ 1`, `-1 - sl ≤ x1 ≤ 1 + su` -/
def exQ : DQp ℚ :=
  { nv := 2, ne := 0, nb := 2, ng := 0, ns := 1
    H := fun i j => if i = j then 1 else 0
    gz := vec [-2, -3, 1, 1]
    A := fun _ _ => 0, b := fun _ => 0, Ct := fun _ _ => 0
    idxb := fun i => i
    idxsRev := fun i => if i = 1 then 0 else -1
    d := vec [0, -1, -1, -1, 0, 0]
    Z := fun _ => 1, m := fun _ => 0, mask := fun _ => 1 }

theorem exQ_wf : WF exQ := ⟨by decide, by decide, by decide, by decide⟩

def exX : Nat → ℚ := vec [1, 3/2, 0, 1/2]
def exY : Nat → ℚ := vec [-1, 0, 5/2, 0, -3/2]
def exA : QArgs ℚ := (qpoasesArgs (10 ^ 10) exQ exQ).get (by decide +kernel)

theorem exA_sol : QSol exA exX exY :=
  ⟨by decide +kernel, by decide +kernel, by decide +kernel, by decide +kernel, by decide +kernel⟩

example : ∃ q2, stack exQ (stackDims exQ exQ) = some q2 ∧ q2.ns = 0 ∧ q2.nv = 4 ∧ ∀ v, obj q2 v = obj exQ v :=
  C48_objective exQ exQ exQ_wf (by decide)

/-- the hypotheses of the multiplier theorem hold for the solution above, with an active hard bound and an
active, violated soft bound -/
example : Kkt { exQ with H := fillUpper 2 exQ.H } exX (qpoasesLam exQ exY) :=
  C48_qpoases_kkt_partial (10 ^ 10) exQ exQ exA (Option.some_get _).symm exQ_wf rfl (fun _ => rfl)
    (by decide) (by decide) (by decide) (by decide +kernel) (by decide +kernel) exX exY (by decide +kernel)
    (by decide +kernel) exA_sol

example : (List.range 6).map (qpoasesLam exQ exY) = [0, 0, 1, 3/2, 1, 0] := by decide +kernel

/-- the stacked problem of `exQ` -/
def exQ2 : DQp ℚ := (stack exQ (stackDims exQ exQ)).get (by decide +kernel)

theorem feasible_dec (q : DQp ℚ) (v : Nat → ℚ)
    (h : (∀ e, e < q.ne → ∑ j ∈ range q.nv, q.A e j * v j = q.b e) ∧
      (∀ i, i < q.nb + q.ng → q.mask i ≠ 0 → lo q i ≤ row q v i + sl q v i) ∧
      (∀ i, i < q.nb + q.ng → q.mask (q.nb + q.ng + i) ≠ 0 → row q v i - su q v i ≤ up q i) ∧
      ∀ j, j < 2 * q.ns → q.mask (2 * (q.nb + q.ng) + j) ≠ 0 → slb q j ≤ v (q.nv + j)) : Feasible q v :=
  ⟨h.1, h.2.1, h.2.2.1, h.2.2.2⟩

theorem exFeas : Feasible (unmasked exQ2) exX := feasible_dec _ _ (by decide +kernel)

example : Feasible exQ exX :=
  C48_stacked_feasible_partial exQ exQ exQ2 exQ_wf (by decide) (by decide) (by decide +kernel)
    (Option.some_get _).symm exX exFeas

example : ∃ w, Feasible (unmasked exQ2) w ∧ (∀ j, j < 2 → w j = exX j) ∧ obj exQ2 w ≤ obj exQ exX :=
  C48_same_minimum_partial exQ exQ exQ2 exQ_wf (by decide) (by decide) (fun _ => rfl) (by decide +kernel)
    (by decide +kernel) (by decide +kernel) (Option.some_get _).symm exX (feasible_dec _ _ (by decide +kernel))
    (by decide +kernel)

/-- the returned point is a global minimum of the example -/
theorem exOpt (w : Nat → ℚ) (hw : Feasible exQ w) : obj exQ exX ≤ obj exQ w := by
  have hk := C48_qpoases_kkt_partial (10 ^ 10) exQ exQ exA (Option.some_get _).symm exQ_wf rfl (fun _ => rfl)
    (by decide) (by decide) (by decide) (by decide +kernel) (by decide +kernel) exX exY (by decide +kernel)
    (by decide +kernel) exA_sol
  have e : fillUpper exQ.nv exQ.H = exQ.H := by
    funext r c
    unfold fillUpper
    change (if r < 2 ∧ c < 2 ∧ r < c then (if c = r then (1 : ℚ) else 0) else if r = c then 1 else 0) = if r = c then 1 else 0
    by_cases h : r = c
    · subst h; simp
    · rw [if_neg h, if_neg (c := c = r) (fun h' => h h'.symm), ite_self]
  rw [e] at hk
  refine C48_kkt_optimal exQ exQ_wf (fun _ => rfl) ?_ ?_ (by decide +kernel) exX _ hk w hw
  · intro i _ j _
    change (if i = j then (1 : ℚ) else 0) = if j = i then 1 else 0
    by_cases h : i = j
    · rw [if_pos h, if_pos h.symm]
    · rw [if_neg h, if_neg (fun h' => h h'.symm)]
  · intro d
    change 0 ≤ ∑ i ∈ range 2, ∑ j ∈ range 2, (if i = j then (1 : ℚ) else 0) * d i * d j
    simp only [sum_range_succ, range_zero, sum_empty]
    norm_num
    nlinarith [mul_self_nonneg (d 0), mul_self_nonneg (d 1)]

example : IsMin exQ exX :=
  C48_solution_partial exQ exQ exQ2 exQ_wf (by decide) (by decide) (fun _ => rfl) (by decide +kernel)
    (by decide +kernel) (by decide +kernel) (Option.some_get _).symm exX exFeas fun w hw => by
      have e : ∀ v, obj exQ2 v = obj exQ v := by
        obtain ⟨q2, h, _, _, h'⟩ := C48_objective exQ exQ exQ_wf (by decide)
        obtain rfl : q2 = exQ2 := Option.some.inj (h.symm.trans (Option.some_get _).symm)
        exact h'
      rw [e, e]
      exact exOpt w (C48_stacked_feasible_partial exQ exQ exQ2 exQ_wf (by decide) (by decide) (by decide +kernel)
        (Option.some_get _).symm w hw)

/-! ## Where the transformation goes wrong -/

/-- one hard bound `1 ≤ x1 ≤ 2` and one softened constraint `x0 + x1 ≤ 10` -/
def badIdx : DQp ℚ :=
  { nv := 2, ne := 0, nb := 1, ng := 1, ns := 1
    H := fun i j => if i = j then 1 else 0
    gz := vec [0, 0, 1, 1], A := fun _ _ => 0, b := fun _ => 0, Ct := fun _ _ => 1
    idxb := fun _ => 1
    idxsRev := fun i => if i = 1 then 0 else -1
    d := vec [1, -10, -2, -10, 0, 0]
    Z := fun _ => 1, m := fun _ => 0, mask := fun _ => 1 }

/-- Stacking puts a hard bound on variable `ii` instead of `idxb[ii]` (dense_qp_common.c:553): the stacked QP
bounds `x0` instead of `x1` and admits points that violate the original bound. -/
theorem C48_hard_bound_counterexample : ∃ (q q2 : DQp ℚ) (v : Nat → ℚ), WF q ∧ 0 < q.ns ∧
    (∀ i, q.mask i = 1) ∧ (∀ t, t < 2 * q.ns → slb q t = 0) ∧ stack q (stackDims q q) = some q2 ∧
    Feasible (unmasked q2) v ∧ ¬ Feasible q v := by
  refine ⟨badIdx, (stack badIdx (stackDims badIdx badIdx)).get (by decide +kernel), vec [1, 0, 0, 0],
    ⟨by decide, by decide, by decide, by decide⟩, by decide, fun _ => rfl, by decide +kernel,
    (Option.some_get _).symm, feasible_dec _ _ (by decide +kernel), fun h => ?_⟩
  exact absurd (h.lower 0 (by decide) (by decide +kernel)) (by decide +kernel)

/-- Negative lower bounds of slacks are not translated correctly: one row of the stacked QP contains both
slacks. -/
theorem C48_negative_slack_counterexample : ∃ (q q2 : DQp ℚ) (v : Nat → ℚ), WF q ∧ 0 < q.ns ∧
    (∀ i, q.mask i = 1) ∧ (∀ j, j < q.nb → q.idxsRev j = -1 → q.idxb j = j) ∧
    stack q (stackDims q q) = some q2 ∧ Feasible (unmasked q2) v ∧ ¬ Feasible q v := by
  let q : DQp ℚ := { exQ with d := vec [0, -1, -1, -1, -5, -5] }
  refine ⟨q, (stack q (stackDims q q)).get (by decide +kernel), vec [0, -2, 0, -1],
    ⟨by decide, by decide, by decide, by decide⟩, by decide, fun _ => rfl, by decide,
    (Option.some_get _).symm, feasible_dec _ _ (by decide +kernel), fun h => ?_⟩
  exact absurd (h.lower 1 (by decide) (by decide +kernel)) (by decide +kernel)

/-- Slacks are bounded by `1e6` (dense_qp_common.c:563): a soft QP that is always feasible can become
infeasible. -/
theorem C48_slack_cap_counterexample : ∃ (q q2 : DQp ℚ) (v : Nat → ℚ), WF q ∧ 0 < q.ns ∧
    (∀ i, q.mask i = 1) ∧ (∀ j, j < q.nb → q.idxsRev j = -1 → q.idxb j = j) ∧ (∀ t, t < 2 * q.ns → slb q t = 0) ∧
    stack q (stackDims q q) = some q2 ∧ Feasible q v ∧ ∀ w, ¬ Feasible (unmasked q2) w := by
  let q : DQp ℚ := { badIdx with idxb := fun _ => 0, ng := 1, d := vec [1, 2000003, -2, -3000000, 0, 0]
                                 Ct := fun i _ => if i = 0 then 1 else 0 }
  have hq : WF q := ⟨by decide, by decide, by decide, by decide⟩
  refine ⟨q, (stack q (stackDims q q)).get (by decide +kernel), vec [1, 0, 2000002, 0], hq,
    by decide, fun _ => rfl, by decide, by decide +kernel,
    (Option.some_get _).symm, feasible_dec _ _ (by decide +kernel), fun w h => ?_⟩
  obtain ⟨q2, h', S, _⟩ := stack_stacked q q hq (by decide)
  have e : (stack q (stackDims q q)).get (by decide +kernel) = q2 :=
    Option.some.inj ((Option.some_get _).trans h')
  rw [e] at h
  clear e
  have n := fun i => nosl (q2 := unmasked q2) S.ns w i
  have c1 : Nat.count (HH q) 1 = 1 := by decide
  have c2 : Nat.count (SS q) 1 = 0 := by decide
  have hnb : q2.nb = 3 := by rw [S.nb]; decide
  have hng : q2.ng = 1 := by rw [S.ng]; decide
  -- `x0 ≤ 2`
  have a := h.upper 0 (by change 0 < q2.nb + q2.ng; omega) one_ne_zero
  rw [(n 0).2, sub_zero] at a
  have a' := S.row_hard hq w 0 (by decide) (by decide)
  have a'' := S.hardU 0 (by decide) (by decide)
  have z : Nat.count (HH q) 0 = 0 := by decide
  rw [z] at a' a''
  change row q2 w 0 ≤ -q2.d (q2.nb + q2.ng + 0) at a
  rw [a', a''] at a
  -- slacks
  have b := h.upper 1 (by change 1 < q2.nb + q2.ng; omega) one_ne_zero
  rw [(n 1).2, sub_zero] at b
  have b' := S.row_slk hq w 0 (by decide)
  have b'' := S.slkU 0 (by decide)
  have c1' : Nat.count (HH q) q.nb = 1 := c1
  rw [c1'] at b' b''
  change row q2 w 1 ≤ -q2.d (q2.nb + q2.ng + 1) at b
  rw [b', b''] at b
  have s := h.lower 2 (by change 2 < q2.nb + q2.ng; omega) one_ne_zero
  rw [(n 2).1, add_zero] at s
  have s' := S.row_slk hq w 1 (by decide)
  have s'' := S.slkL 1 (by decide)
  rw [c1'] at s' s''
  change q2.d 2 ≤ row q2 w 2 at s
  rw [s', s''] at s
  -- soft row
  have g := h.lower 3 (by change 3 < q2.nb + q2.ng; omega) one_ne_zero
  rw [(n 3).1, add_zero] at g
  have g' := S.row_gen hq w 0 (by decide)
  have g'' := S.genL 0 (by decide)
  rw [hnb] at g' g''
  change q2.d 3 ≤ row q2 w 3 at g
  rw [g', g''] at g
  have r : row q w (q.nb + 0) = w 0 := by
    change ∑ j ∈ range 2, (if j = 0 then (1 : ℚ) else 0) * w j = w 0
    simp
  rw [r, if_pos (by decide)] at g
  have v1 : q.d (q.nb + 0) = 2000003 := by decide +kernel
  have v2 : q.d (q.nb + q.ng + 0) = -2 := by decide +kernel
  have v3 : slb q 1 = 0 := by decide +kernel
  have v4 : q.nv + slackOf q (q.nb + 0) = 2 := by decide
  have v5 : q.nv + q.ns + slackOf q (q.nb + 0) = 3 := by decide
  have v6 : q.nv + 0 = 2 := rfl
  have v7 : q.nv + 1 = 3 := rfl
  rw [v1, v4, v5] at g
  rw [v2] at a
  rw [v6] at b
  rw [v3, v7] at s
  linarith

/-- two softened bounds whose slacks are listed in the opposite order -/
def swapped : DQp ℚ :=
  { nv := 2, ne := 0, nb := 2, ng := 0, ns := 2
    H := fun i j => if i = j then 1 else 0
    gz := vec [-5, 0, 1, 1, 1, 1]
    A := fun _ _ => 0, b := fun _ => 0, Ct := fun _ _ => 0
    idxb := fun i => i
    idxsRev := fun i => 1 - i
    d := vec [-1, -1, -1, -1, 0, 0, 0, 0]
    Z := fun _ => 1, m := fun _ => 0, mask := fun _ => 1 }

/-- Multipliers of soft bounds are read in the order of the slacks, but the rows of the stacked QP are in the
order of the bounds: a correct solution of qpOASES is returned with multipliers of other constraints. -/
theorem C48_slack_order_counterexample : ∃ (q : DQp ℚ) (a : QArgs ℚ) (x y : Nat → ℚ), WF q ∧ 0 < q.ns ∧
    q.ne = 0 ∧ (∀ i, q.mask i = 1) ∧ (∀ i, i < q.nb → q.idxb i = i) ∧
    (∀ t, t < 2 * q.ns → 0 ≤ q.Z t ∧ 0 ≤ q.gz (q.nv + t)) ∧ (∀ t, t < 2 * q.ns → slb q t = 0) ∧
    (∀ t, t < 2 * q.ns → x (q.nv + t) < 1000000) ∧ (∀ j, j < q.nv → -10 ^ 10 < x j ∧ x j < 10 ^ 10) ∧
    qpoasesArgs (10 ^ 10) q q = some a ∧ QSol a x y ∧
    ¬ Kkt { q with H := fillUpper q.nv q.H } x (qpoasesLam q y) := by
  refine ⟨swapped, (qpoasesArgs (10 ^ 10) swapped swapped).get (by decide +kernel), vec [5/2, 0, 0, 0, 0, 3/2],
    vec [0, 0, 1, 7/2, 1, 0, -5/2, 0], ⟨by decide, by decide, by decide, by decide⟩, by decide, rfl, fun _ => rfl,
    by decide, by decide +kernel, by decide +kernel, by decide +kernel, by decide +kernel, (Option.some_get _).symm,
    ⟨by decide +kernel, by decide +kernel, by decide +kernel, by decide +kernel, by decide +kernel⟩, fun h => ?_⟩
  exact absurd (h.stat 0 (by decide)) (by decide +kernel)

/-- The data given to qpOASES depends neither on the mask nor on the equality constraints. -/
theorem C48_qpoases_ignores {K : Type*} [Field K] [LinearOrder K] (big : K) (q old : DQp K) (mask : Nat → K)
    (A : Nat → Nat → K) (b : Nat → K) (hns : q.ns = 0) :
    qpoasesArgs big { q with mask := mask, A := A, b := b } old = qpoasesArgs big q old := by
  unfold qpoasesArgs
  simp only [hns]
  rfl

/-- Hence a masked bound is still enforced: the point returned as solution is not a minimum of the masked QP. -/
theorem C48_mask_counterexample : ∃ (q : DQp ℚ) (a : QArgs ℚ) (x y w : Nat → ℚ), WF q ∧ q.ne = 0 ∧
    qpoasesArgs (10 ^ 10) q q = some a ∧ QSol a x y ∧ Feasible q w ∧ obj q w < obj q x := by
  let q : DQp ℚ := { exQ with ns := 0, idxsRev := fun _ => -1, mask := fun i => if i = 3 then 0 else 1 }
  refine ⟨q, (qpoasesArgs (10 ^ 10) q q).get (by decide +kernel), vec [1, 1], vec [-1, -2], vec [1, 3],
    ⟨by decide, by decide, by decide, by decide⟩, rfl, (Option.some_get _).symm,
    ⟨by decide +kernel, by decide +kernel, by decide +kernel, by decide +kernel, by decide +kernel⟩,
    feasible_dec _ _ (by decide +kernel), by decide +kernel⟩

/-- Equality constraints are dropped: the point returned as solution violates them. -/
theorem C48_equality_counterexample : ∃ (q : DQp ℚ) (a : QArgs ℚ) (x y : Nat → ℚ), WF q ∧ (∀ i, q.mask i = 1) ∧
    qpoasesArgs (10 ^ 10) q q = some a ∧ QSol a x y ∧ ¬ Feasible q x ∧ ∃ w, Feasible q w := by
  let q : DQp ℚ := { exQ with ns := 0, idxsRev := fun _ => -1, ne := 1, A := fun _ _ => 1 }
  refine ⟨q, (qpoasesArgs (10 ^ 10) q q).get (by decide +kernel), vec [1, 1], vec [-1, -2],
    ⟨by decide, by decide, by decide, by decide⟩, fun _ => rfl, (Option.some_get _).symm,
    ⟨by decide +kernel, by decide +kernel, by decide +kernel, by decide +kernel, by decide +kernel⟩,
    fun h => absurd (h.eq 0 (by decide)) (by decide +kernel), vec [0, 0], feasible_dec _ _ (by decide +kernel)⟩

end
end Acados.DenseQp
