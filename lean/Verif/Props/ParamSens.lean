import Verif.Lemmas.ParamSens
import Mathlib.Algebra.Field.Rat
import Mathlib.Tactic.IntervalCases
import Mathlib.Tactic.NormNum
import Mathlib.Tactic.FieldSimp
/-!
# C76: solution sensitivities

`eval_param_sens` (forward), `eval_solution_sens_adj_p` (adjoint), `eval_lagr_grad_p` (gradient of the optimal value).
-/
namespace Acados.PSens
open Finset
open Acados.PSens.Spec
variable {K : Type*} [Field K]
set_option linter.unusedSectionVars false

/-- **C76 (adjoint).**  The gradient returned by `eval_solution_sens_adj_p` is, for every parameter `k`, the seed
applied to the derivative of the solution with respect to `p_k`, whatever solution `v` of the differentiated
optimality conditions is taken. -/
theorem C76_adjoint (d : Dims) (L : Lin K) (P : Prob K) (μ : Mult K) (adj : Seed K → Sol K) (hadj : AdjOk d L adj)
    (hH : ∀ i, i ≤ d.N → ∀ r, r < d.nv i → ∀ v, v < d.nv i → L.H i r v = L.H i v r)
    (hlam : ∀ i, i ≤ d.N → ∀ q, q < 2 * d.ni i → L.lam i q ≠ 0)
    (s : Nat → Nat → K) (opt : Bool) (f : Which) {grad : Nat → K}
    (hrun : evalAdjP d opt adj P μ f s = some grad) (k : Nat) {v : Sol K}
    (hv : Diff d L (gP d P μ k) (bP P k) (dP d P k) v) :
    grad k = pair d s v := by
  unfold evalAdjP at hrun
  cases opt with
  | false => rw [if_neg (by decide)] at hrun; exact (nomatch hrun)
  | true =>
    rw [if_pos rfl] at hrun
    simp only at hrun
    by_cases hf : f = .pGlobal
    swap
    · rw [if_neg hf] at hrun; exact (nomatch hrun)
    rw [if_pos hf] at hrun
    set y := adj (seedAdj d s) with hy
    have hy' := hadj (seedAdj d s).g
    have hext : ∀ i ∈ List.range (d.N + 1), P.ext i = true := by
      intro i hi
      by_contra h
      rw [adjLoop_none d P μ y _ _ ⟨i, hi, by simpa using h⟩] at hrun
      exact (nomatch hrun)
    rw [adjLoop_eq d P μ y _ _ hext] at hrun
    rw [← Option.some.inj hrun]
    have hpair : pair d s v = pair d (seedAdj d s).g v := by
      unfold pair
      refine sum_congr rfl fun i hi => sum_congr rfl fun r hr => ?_
      simp only [seedAdj]
      rw [if_pos ⟨by have := mem_range.1 hi; omega, mem_range.1 hr⟩]
    rw [hpair, pair_identity d L hH hlam hv hy']
    change (0 : K) + _ = _
    rw [zero_add, sum_list_range]
    change _ = (∑ i ∈ range (d.N + 1), ∑ r ∈ range (d.nv i), y.ux i r * gP d P μ k i r)
        + (∑ i ∈ range d.N, ∑ c ∈ range (d.nx (i + 1)), y.pi i c * bP P k i c)
        + ∑ i ∈ range (d.N + 1), ∑ q ∈ range (2 * d.ni i), y.lam i q * dP d P k i q
    have hb : (∑ i ∈ range d.N, ∑ c ∈ range (d.nx (i + 1)), y.pi i c * bP P k i c)
        = ∑ i ∈ range (d.N + 1), if i < d.N then ∑ c ∈ range (d.nx (i + 1)), y.pi i c * bP P k i c else 0 :=
      (sum_if_lt (by omega) _).symm
    rw [hb, ← sum_add_distrib, ← sum_add_distrib]
    refine sum_congr rfl fun i hi => ?_
    have hx : P.ext i = true := hext i (List.mem_range.2 (mem_range.1 hi))
    rw [pair_dP d P (y.lam i) k i]
    have hg : (∑ r ∈ range (d.nv i), y.ux i r * gP d P μ k i r)
        = ∑ r ∈ range (d.nu i + d.nx i), y.ux i r * (P.scaling i * P.lxp i r k
            + (if i < d.N then ∑ c ∈ range (d.nx (i + 1)), μ.pi i c * P.fxp i c r k else 0)
            + ∑ j ∈ range (d.nh i), lamDiff d μ i j * P.hxp i j r k) := by
      rw [← sum_if_lt (n := d.nu i + d.nx i) (m := d.nv i) (by unfold Dims.nv; omega)]
      refine sum_congr rfl fun r _ => ?_
      unfold gP
      by_cases h : r < d.nu i + d.nx i
      · simp only [if_pos h, if_pos hx]
      · simp only [if_neg h, mul_zero]
    rw [hg]
    have hc : adjCon d P μ y i k
        = (∑ r ∈ range (d.nu i + d.nx i), y.ux i r * ∑ j ∈ range (d.nh i), lamDiff d μ i j * P.hxp i j r k)
          + ∑ j ∈ range (d.nh i), P.hp i j k * (y.lam i (d.nb i + d.ng i + d.nh i + (d.nb i + d.ng i + j))
              - y.lam i (d.nb i + d.ng i + j)) := by
      unfold adjCon
      by_cases h : 0 < d.nh i
      · rw [if_pos h]
        congr 1
        · refine sum_congr rfl fun r _ => ?_
          rw [mul_comm]
          congr 1
          exact sum_congr rfl fun j _ => by rw [lamH_eq]; ring
        · refine sum_congr rfl fun j _ => ?_
          congr 1
          exact lamH_eq d ⟨y.pi, y.lam⟩ i j
      · rw [if_neg h, show d.nh i = 0 by omega]
        simp
    rw [hc]
    have hcost : adjCost d P y i k = ∑ r ∈ range (d.nu i + d.nx i), y.ux i r * (P.scaling i * P.lxp i r k) := by
      unfold adjCost
      rw [mul_sum]
      exact sum_congr rfl fun r _ => by ring
    rw [hcost]
    by_cases hi' : i < d.N
    · simp only [if_pos hi']
      unfold adjDyn
      have e1 : (∑ r ∈ range (d.nu i + d.nx i), dynXP d P μ i r k * y.ux i r)
          = ∑ r ∈ range (d.nu i + d.nx i), y.ux i r * ∑ c ∈ range (d.nx (i + 1)), μ.pi i c * P.fxp i c r k := by
        refine sum_congr rfl fun r _ => ?_
        rw [mul_comm]
        congr 1
        exact sum_congr rfl fun c _ => by ring
      have e2 : (∑ c ∈ range (d.nx (i + 1)), P.fp i c k * y.pi i c)
          = ∑ c ∈ range (d.nx (i + 1)), y.pi i c * bP P k i c :=
        sum_congr rfl fun c _ => by unfold bP; ring
      rw [e1, e2]
      simp only [mul_add, sum_add_distrib]
      ring
    · simp only [if_neg hi', add_zero]
      simp only [mul_add, sum_add_distrib]
      ring

/-- **C76 (availability of the adjoint).**  The adjoint computation delivers a result exactly if its option is set,
the field is `p_global` and every stage has an external cost; a linear least-squares cost at any stage ends the
program, although that cost does not depend on the parameters at all. -/
theorem C76_adjoint_runs (d : Dims) (P : Prob K) (μ : Mult K) (adj : Seed K → Sol K) (s : Nat → Nat → K)
    (opt : Bool) (f : Which) :
    (evalAdjP d opt adj P μ f s).isSome ↔ opt = true ∧ f = .pGlobal ∧ ∀ i, i ≤ d.N → P.ext i = true := by
  unfold evalAdjP
  cases opt with
  | false => simp
  | true =>
    by_cases hf : f = .pGlobal
    swap
    · simp [hf]
    simp only [if_true, if_pos hf]
    by_cases he : ∀ i, i ≤ d.N → P.ext i = true
    · rw [adjLoop_eq _ _ _ _ _ _ fun i hi => he i (by have := List.mem_range.1 hi; omega)]
      simp [hf]
      exact he
    · have he' := he
      push Not at he
      obtain ⟨i, hi, hie⟩ := he
      rw [adjLoop_none _ _ _ _ _ _ ⟨i, List.mem_range.2 (by omega), by simpa using hie⟩]
      simp only [Option.isSome_none, Bool.false_eq_true, false_iff]
      exact fun h => he' h.2.2

/-- **C76 (forward), partial.**  With a solver that meets its contract, the result of `eval_param_sens` for parameter
`k` is the derivative of the solution with respect to `p_k`, whatever was in the sensitivity matrices before.
Missing: constraints `h` whose derivative with respect to `(u, x)` depends on the parameter (hypothesis `hmix`), see
`C76_forward_false`. -/
theorem C76_forward_partial (d : Dims) (L : Lin K) (P : Prob K) (μ : Mult K) (forw : Seed K → Sol K)
    (hforw : ForwOk d L forw) (m0 m : Jac K) (opt : Bool) (hm : jacCompute d opt P μ m0 = some m)
    (k : Nat) (hk : k < d.np)
    (hmix : ∀ i, i ≤ d.N → ∀ r, r < d.nu i + d.nx i → ∑ j ∈ range (d.nh i), lamDiff d μ i j * P.hxp i j r k = 0)
    (stage : Nat) (old out : Sol K) (hout : evalParamSens d forw m .pGlobal stage k old = some out) :
    Diff d L (gP d P μ k) (bP P k) (dP d P k) out := by
  cases opt with
  | false => unfold jacCompute at hm; rw [if_neg (by decide)] at hm; exact (nomatch hm)
  | true =>
    unfold evalParamSens at hout
    rw [if_neg (by rintro ⟨h, _⟩; exact (nomatch h)), if_pos rfl] at hout
    rw [← Option.some.inj hout]
    refine diff_congr (hforw (seedP d m k)) ?_ ?_ ?_ ?_ ?_ ?_
    · intro i hi r hr
      rw [seedP_g d P μ m0 m hm hk hi hr]
      by_cases h : r < d.nu i + d.nx i
      · rw [if_pos h, hmix i hi r h]; ring
      · rw [if_neg h]; ring
    · intro i hi c hc
      rw [seedP_b d P μ m0 m hm hk hi hc]
    · intro i hi q _
      rw [seedP_d d P μ m0 m hm hk hi q]
      exact Or.inl rfl
    · intro i hi r hr
      simp only [copySol]
      rw [if_pos ⟨hi, hr⟩]
    · intro i hi c hc
      simp only [copySol]
      rw [if_pos ⟨hi, hc⟩]
    · intro i hi q hq
      simp only [copySol]
      rw [if_pos ⟨hi, hq⟩]

/-- **C76 (forward against adjoint), partial.**  Under the same hypothesis both routes give the same directional
derivative. -/
theorem C76_forward_adjoint_partial (d : Dims) (L : Lin K) (P : Prob K) (μ : Mult K) (forw adj : Seed K → Sol K)
    (hforw : ForwOk d L forw) (hadj : AdjOk d L adj)
    (hH : ∀ i, i ≤ d.N → ∀ r, r < d.nv i → ∀ v, v < d.nv i → L.H i r v = L.H i v r)
    (hlam : ∀ i, i ≤ d.N → ∀ q, q < 2 * d.ni i → L.lam i q ≠ 0)
    (m0 m : Jac K) (hm : jacCompute d true P μ m0 = some m) (k : Nat) (hk : k < d.np)
    (hmix : ∀ i, i ≤ d.N → ∀ r, r < d.nu i + d.nx i → ∑ j ∈ range (d.nh i), lamDiff d μ i j * P.hxp i j r k = 0)
    (stage : Nat) (old out : Sol K) (hout : evalParamSens d forw m .pGlobal stage k old = some out)
    (s : Nat → Nat → K) {grad : Nat → K} (hrun : evalAdjP d true adj P μ .pGlobal s = some grad) :
    grad k = pair d s out :=
  C76_adjoint d L P μ adj hadj hH hlam s true .pGlobal hrun k
    (C76_forward_partial d L P μ forw hforw m0 m true hm k hk hmix stage old out hout)

/-- **C76 (initial state), partial.**  The result of `eval_param_sens` for field `ex` is the derivative of the
solution with respect to a common shift of both sides of the state bound number `index` of stage 0, provided the upper
side of that bound carries no multiplier.  Missing: bounds with both sides active, see `C76_initial_state_false`. -/
theorem C76_initial_state_partial (d : Dims) (L : Lin K) (forw : Seed K → Sol K) (hforw : ForwOk d L forw)
    (m : Jac K) (index : Nat)
    (hup : L.lam 0 (d.nb 0 + d.ng 0 + d.nh 0 + (d.nbu0 + index)) = 0)
    (old out : Sol K) (hout : evalParamSens d forw m .ex 0 index old = some out) :
    Diff d L (fun _ _ => 0) (fun _ _ => 0) (dX d (d.nbu0 + index)) out := by
  unfold evalParamSens at hout
  rw [if_pos ⟨rfl, rfl⟩] at hout
  rw [← Option.some.inj hout]
  refine diff_congr (hforw (seedX d index)) (fun _ _ _ _ => rfl) (fun _ _ _ _ => rfl) ?_ ?_ ?_ ?_
  · intro i hi q hq
    by_cases hi0 : i = 0
    · subst hi0
      by_cases h2 : q = d.nb 0 + d.ng 0 + d.nh 0 + (d.nbu0 + index)
      · right; rw [h2]; exact hup
      · left
        unfold dX
        simp only [seedX]
        by_cases h1 : q = d.nbu0 + index
        · rw [if_pos ⟨trivial, h1⟩, if_pos ⟨trivial, Or.inl h1⟩]
        · rw [if_neg (fun h => h1 h.2), if_neg (fun h => h2 h.2), if_neg]
          rintro ⟨_, h | h⟩
          · exact h1 h
          · exact h2 (by omega)
    · left
      unfold dX
      simp only [seedX]
      rw [if_neg (fun h => hi0 h.1), if_neg (fun h => hi0 h.1), if_neg (fun h => hi0 h.1)]
  · intro i hi r hr
    simp only [copySol]
    rw [if_pos ⟨hi, hr⟩]
  · intro i hi c hc
    simp only [copySol]
    rw [if_pos ⟨hi, hc⟩]
  · intro i hi q hq
    simp only [copySol]
    rw [if_pos ⟨hi, hq⟩]

/-- **C76 (gradient of the optimal value), partial.**  `eval_lagr_grad_p` returns the derivative of the Lagrangian with
respect to the parameters, if the terminal constraints do not depend on them.  Missing: terminal constraints, see
`C76_lagr_grad_false`. -/
theorem C76_lagr_grad_partial (d : Dims) (P : Prob K) (μ : Mult K) (k : Nat)
    (hterm : ∑ j ∈ range (d.nh d.N), lamDiff d μ d.N j * P.hp d.N j k = 0) :
    lagrGrad d P μ k = lagP d P μ k := by
  unfold lagrGrad lagP
  have hf : ∀ n, (List.range n).foldl (fun a i => a + gradDyn d P μ i k + gradCost P i k + gradCon d P μ i k) 0
      = ∑ i ∈ range n, (gradDyn d P μ i k + gradCost P i k + gradCon d P μ i k) := by
    intro n
    induction n with
    | zero => rfl
    | succ n ih =>
      rw [List.range_succ, List.foldl_append, ih, sum_range_succ]
      simp only [List.foldl_cons, List.foldl_nil]
      ring
  have hc : ∀ i, gradCon d P μ i k = ∑ j ∈ range (d.nh i), lamDiff d μ i j * P.hp i j k := by
    intro i
    unfold gradCon
    by_cases h : 0 < d.nh i
    · rw [if_pos h]
      exact sum_congr rfl fun j _ => by rw [lamH_eq]; ring
    · rw [if_neg h, show d.nh i = 0 by omega]; simp
  have hd : ∀ i, gradDyn d P μ i k = ∑ c ∈ range (d.nx (i + 1)), μ.pi i c * P.fp i c k :=
    fun i => sum_congr rfl fun c _ => by ring
  rw [hf, sum_range_succ, sum_range_succ, hterm, add_zero, sum_add_distrib, sum_add_distrib,
    sum_congr rfl fun i _ => hc i, sum_congr rfl fun i _ => hd i]
  unfold gradCost
  ring

/-- **C76 (options), partial.**  `setup_qp_matrices_and_factorize` leaves the warm start and iteration limit of the QP
solver at the values of the NLP options, `t0_min` and `lam0_min` as they were, and reports success exactly if the QP
solver does or hits its (zero) iteration limit.  Missing: `update_fact_exit`, see `C76_setup_options_false`. -/
theorem C76_setup_options_partial (n : NlpOpts K) (qp : QpOpts K → Status) (o : QpOpts K) :
    (setup n qp o).1.warmStart = n.qpWarmStart ∧ (setup n qp o).1.iterMax = n.qpIterMax ∧
    (setup n qp o).1.t0Min = o.t0Min ∧ (setup n qp o).1.lam0Min = o.lam0Min ∧
    (setup n qp o).1.initFromOut = false ∧
    ((setup n qp o).2 = .success ↔
      qp ⟨true, 3, 0, 1, n.tLamMin, n.tLamMin⟩ = .success ∨ qp ⟨true, 3, 0, 1, n.tLamMin, n.tLamMin⟩ = .maxIter) ∧
    ((setup n qp o).2 = .success ∨ (setup n qp o).2 = .qpFailure) := by
  refine ⟨rfl, rfl, rfl, rfl, rfl, ?_, ?_⟩
  · change ((if qp ⟨true, 3, 0, 1, n.tLamMin, n.tLamMin⟩ ≠ .success ∧ qp ⟨true, 3, 0, 1, n.tLamMin, n.tLamMin⟩ ≠ .maxIter
      then Status.qpFailure else .success) = .success ↔ _)
    generalize qp ⟨true, 3, 0, 1, n.tLamMin, n.tLamMin⟩ = st
    cases st <;> simp
  · change (if qp (setupBefore n o) ≠ .success ∧ qp (setupBefore n o) ≠ .maxIter
      then Status.qpFailure else .success) = .success ∨ (if qp (setupBefore n o) ≠ .success ∧
        qp (setupBefore n o) ≠ .maxIter then Status.qpFailure else .success) = .qpFailure
    generalize qp (setupBefore n o) = st
    cases st <;> simp

/-! ## Witnesses -/

/-- one stage with two controls and one inequality `h`, a terminal stage without variables -/
def wd : Dims :=
  { N := 1, nx := fun _ => 0, nu := fun i => if i = 0 then 2 else 0, ns := fun _ => 0, nb := fun _ => 0
    ng := fun _ => 0, nh := fun i => if i = 0 then 1 else 0, np := 1, nbu0 := 0 }

/-- cost `(u₀² + u₁²)/2`, `h = u₀ + p u₁` at `p = 0`, with multipliers 2 and 1 and slacks 1 and 1 -/
def wL : Lin ℚ :=
  { H := fun _ r v => if r = v then 1 else 0
    A := fun _ _ _ => 0
    T := fun _ q v => if v = 0 then (if q = 0 then 1 else -1) else 0
    lam := fun _ q => if q = 0 then 2 else 1
    t := fun _ _ => 1 }

/-- derivatives for `h = u₀ + p u₁` at `u₁ = 3` -/
def wP : Prob ℚ :=
  { scaling := fun _ => 1, ext := fun _ => true, lp := fun _ _ => 0, lxp := fun _ _ _ => 0
    fp := fun _ _ _ => 0, fxp := fun _ _ _ _ => 0
    hp := fun _ _ _ => 3
    hxp := fun _ _ r _ => if r = 1 then 1 else 0 }

def wμ : Mult ℚ := { pi := fun _ _ => 0, lam := fun _ q => if q = 0 then 2 else 1 }

/-- a solver for the witness: the closed-form solution -/
def wSolve (s : Seed ℚ) : Sol ℚ :=
  let u0 := (2 * s.d 0 0 - s.d 0 1 - s.g 0 0) / 4
  { ux := fun _ r => if r = 0 then u0 else - s.g 0 1
    pi := fun _ _ => 0
    lam := fun _ q => if q = 0 then -2 * (u0 - s.d 0 0) else u0 + s.d 0 1 }

theorem wSolve_ok : ForwOk wd wL wSolve := by
  intro s
  refine ⟨?_, ?_, ?_⟩
  · intro i hi r hr
    have hi' : i < 2 := Nat.lt_succ_of_le hi
    interval_cases i
    · have hr' : r < 2 := hr
      interval_cases r
      · simp [statLhs, wd, wL, wSolve, Dims.nv, Dims.ni, sum_range_succ]; ring
      · simp [statLhs, wd, wL, wSolve, Dims.nv, Dims.ni, sum_range_succ]
    · exact absurd hr (Nat.not_lt_zero _)
  · intro i hi c hc
    have : c < 0 := hc
    omega
  · intro i hi q hq
    have hi' : i < 2 := Nat.lt_succ_of_le hi
    interval_cases i
    · have hq' : q < 2 := hq
      interval_cases q
      · simp [wd, wL, wSolve, Dims.nv, sum_range_succ]
      · simp [wd, wL, wSolve, Dims.nv, sum_range_succ]
    · exact absurd hq (Nat.not_lt_zero _)

theorem wSolve_adj : AdjOk wd wL wSolve := fun g => wSolve_ok ⟨g, fun _ _ => 0, fun _ _ => 0⟩

/-- memory with arbitrary earlier content -/
def wJ : Jac ℚ := { lag := fun _ _ _ => 7, dyn := fun _ _ _ => 7, ineq := fun _ _ _ => 7 }
def w0 : Sol ℚ := { ux := fun _ _ => 0, pi := fun _ _ => 0, lam := fun _ _ => 0 }
/-- the sensitivity matrices after `ocp_nlp_params_jac_compute` -/
def wM : Jac ℚ := (jacCompute wd true wP wμ wJ).get rfl
/-- forward sensitivity reported for the parameter -/
def wOut : Sol ℚ := (evalParamSens wd wSolve wM .pGlobal 0 0 w0).get rfl
/-- derivative of the solution: solution of the differentiated conditions -/
def wTrue : Sol ℚ := wSolve ⟨gP wd wP wμ 0, bP wP 0, dP wd wP 0⟩
def wGrad : Nat → ℚ := (evalAdjP wd true wSolve wP wμ .pGlobal (fun _ r => if r = 1 then 1 else 0)).get rfl

/-- **C76, negation (forward).**  For `h = u₀ + p u₁` the forward sensitivity of `u₁` is `-1`, although the
derivative is `1`: the constraint contribution enters with the wrong sign (ocp_nlp_constraints_bgh.c:1829).  The
adjoint route, on the same problem and with the same solver, gives `1`. -/
theorem C76_forward_false :
    ForwOk wd wL wSolve ∧ AdjOk wd wL wSolve ∧
    jacCompute wd true wP wμ wJ = some wM ∧ evalParamSens wd wSolve wM .pGlobal 0 0 w0 = some wOut ∧
    evalAdjP wd true wSolve wP wμ .pGlobal (fun _ r => if r = 1 then 1 else 0) = some wGrad ∧
    Diff wd wL (gP wd wP wμ 0) (bP wP 0) (dP wd wP 0) wTrue ∧
    wTrue.ux 0 1 = 1 ∧ wGrad 0 = 1 ∧ wOut.ux 0 1 = -1 ∧
    ¬ Diff wd wL (gP wd wP wμ 0) (bP wP 0) (dP wd wP 0) wOut := by
  have h1 : wOut.ux 0 1 = -1 := by decide +kernel
  refine ⟨wSolve_ok, wSolve_adj, rfl, rfl, rfl,
    wSolve_ok ⟨gP wd wP wμ 0, bP wP 0, dP wd wP 0⟩, by decide +kernel, by decide +kernel, h1, ?_⟩
  intro h
  have h2 := h.stat 0 (by decide) 1 (by decide)
  exact absurd h2 (by decide +kernel)

/-- the hypotheses of the adjoint and forward theorems hold on this problem (for the latter with a parameter entering
`h` additively) -/
example : (∀ i, i ≤ wd.N → ∀ r, r < wd.nv i → ∀ v, v < wd.nv i → wL.H i r v = wL.H i v r) ∧
    (∀ i, i ≤ wd.N → ∀ q, q < 2 * wd.ni i → wL.lam i q ≠ 0) ∧
    (∀ i, i ≤ wd.N → ∀ r, r < wd.nu i + wd.nx i →
      ∑ j ∈ range (wd.nh i), lamDiff wd wμ i j * ({ wP with hxp := fun _ _ _ _ => 0 } : Prob ℚ).hxp i j r 0 = 0) :=
  ⟨by decide +kernel, by decide +kernel, fun i _ r _ => by simp⟩

/-- one stage with a state bounded from both sides -/
def xd : Dims :=
  { N := 1, nx := fun i => if i = 0 then 1 else 0, nu := fun _ => 0, ns := fun _ => 0
    nb := fun i => if i = 0 then 1 else 0, ng := fun _ => 0, nh := fun _ => 0, np := 0, nbu0 := 0 }

/-- both sides of the bound active, `λ/t = 1`, Hessian 2 -/
def xL (up : ℚ) : Lin ℚ :=
  { H := fun _ _ _ => 2
    A := fun _ _ _ => 0
    T := fun _ q _ => if q = 0 then 1 else -1
    lam := fun _ q => if q = 0 then 1 else up
    t := fun _ _ => 1 }

/-- closed-form solution -/
def xSolve (up : ℚ) (s : Seed ℚ) : Sol ℚ :=
  let x := (s.d 0 0 - up * s.d 0 1 - s.g 0 0) / (3 + up)
  { ux := fun _ _ => x
    pi := fun _ _ => 0
    lam := fun _ q => if q = 0 then -(x - s.d 0 0) else up * (x + s.d 0 1) }

theorem xSolve_ok (up : ℚ) (h3 : 3 + up ≠ 0) : ForwOk xd (xL up) (xSolve up) := by
  intro s
  refine ⟨?_, ?_, ?_⟩
  · intro i hi r hr
    have hi' : i < 2 := Nat.lt_succ_of_le hi
    interval_cases i
    · have hr' : r < 1 := hr
      interval_cases r
      simp [statLhs, xd, xL, xSolve, Dims.nv, Dims.ni, sum_range_succ]
      field_simp
      ring
    · exact absurd hr (Nat.not_lt_zero _)
  · intro i hi c hc
    have hi' : i < 1 := hi
    interval_cases i
    exact absurd hc (Nat.not_lt_zero _)
  · intro i hi q hq
    have hi' : i < 2 := Nat.lt_succ_of_le hi
    interval_cases i
    · have hq' : q < 2 := hq
      interval_cases q
      · simp [xd, xL, xSolve, Dims.nv, sum_range_succ]
      · simp [xd, xL, xSolve, Dims.nv, sum_range_succ]; ring
    · exact absurd hq (Nat.not_lt_zero _)

/-- **C76, negation (initial state).**  With both sides of the bound active the seed of the upper side has the wrong
sign: the reported derivative of the state with respect to its own bound is 0 instead of 1/2. -/
theorem C76_initial_state_false :
    ForwOk xd (xL 1) (xSolve 1) ∧
    (∃ out, evalParamSens xd (xSolve 1) wJ .ex 0 0 w0 = some out ∧ out.ux 0 0 = 0) ∧
    (∃ v, Diff xd (xL 1) (fun _ _ => 0) (fun _ _ => 0) (dX xd 0) v ∧ v.ux 0 0 = 1 / 2) ∧
    ∀ v, Diff xd (xL 1) (fun _ _ => 0) (fun _ _ => 0) (dX xd 0) v → v.ux 0 0 = 1 / 2 := by
  refine ⟨xSolve_ok 1 (by norm_num), ⟨_, rfl, by decide +kernel⟩, ?_, ?_⟩
  · exact ⟨xSolve 1 ⟨fun _ _ => 0, fun _ _ => 0, dX xd 0⟩, xSolve_ok 1 (by norm_num) ⟨fun _ _ => 0, fun _ _ => 0, dX xd 0⟩,
      by decide +kernel⟩
  · intro v h
    have h1 := h.stat 0 (by decide) 0 (by decide)
    have h2 := h.comp 0 (by decide) 0 (by decide)
    have h3 := h.comp 0 (by decide) 1 (by decide)
    simp [statLhs, xd, xL, Dims.nv, Dims.ni, dX, sum_range_succ] at h1 h2 h3
    linear_combination (1 / 4) * h1 + (1 / 4) * h2 - (1 / 4) * h3

/-- the hypotheses of `C76_initial_state_partial` hold when the upper side is inactive -/
example : ForwOk xd (xL 0) (xSolve 0) ∧ (xL 0).lam 0 (xd.nb 0 + xd.ng 0 + xd.nh 0 + (xd.nbu0 + 0)) = 0 ∧
    ∃ out, evalParamSens xd (xSolve 0) wJ .ex 0 0 w0 = some out ∧ out.ux 0 0 = 1 / 3 :=
  ⟨xSolve_ok 0 (by norm_num), by decide +kernel, ⟨_, rfl, by decide +kernel⟩⟩

/-- two states of which only one is bounded, and a general constraint -/
def gd : Dims :=
  { N := 1, nx := fun i => if i = 0 then 2 else 0, nu := fun _ => 0, ns := fun _ => 0
    nb := fun i => if i = 0 then 1 else 0, ng := fun i => if i = 0 then 1 else 0, nh := fun _ => 0, np := 0
    nbu0 := 0 }

/-- **C76, negation (index).**  `index` counts bounds, not states: with a bound on one of two states only, the request
for state 1 perturbs the lower side of the first general constraint (row 1 of the inequalities). -/
theorem C76_initial_state_index_false :
    1 < gd.nx 0 ∧ gd.nb 0 ≤ 1 ∧ (seedX gd 1 : Seed ℚ).d 0 (gd.nb 0) = 1 ∧
    ∀ row, row < gd.nb 0 → (seedX gd 1 : Seed ℚ).d 0 row = 0 := by
  refine ⟨by decide, by decide, by decide +kernel, ?_⟩
  intro row h
  have : row < 1 := h
  interval_cases row
  decide +kernel

/-- terminal constraint with parameter -/
def td : Dims :=
  { N := 1, nx := fun _ => 1, nu := fun _ => 0, ns := fun _ => 0, nb := fun _ => 0, ng := fun _ => 0
    nh := fun i => if i = 1 then 1 else 0, np := 1, nbu0 := 0 }

/-- **C76, negation (gradient of the optimal value).**  A parameter in the terminal constraint is ignored: the
Lagrangian has derivative 1, the returned gradient is 0. -/
theorem C76_lagr_grad_false :
    ∃ (P : Prob ℚ) (μ : Mult ℚ), lagP td P μ 0 = 1 ∧ lagrGrad td P μ 0 = 0 :=
  ⟨{ scaling := fun _ => 1, ext := fun _ => true, lp := fun _ _ => 0, lxp := fun _ _ _ => 0, fp := fun _ _ _ => 0
     fxp := fun _ _ _ _ => 0, hp := fun _ _ _ => 1, hxp := fun _ _ _ _ => 0 },
   ⟨fun _ _ => 0, fun _ q => if q = 1 then 1 else 0⟩, by decide +kernel, by decide +kernel⟩

/-- `C76_lagr_grad_partial` applies with a parameter in cost, dynamics and path constraint -/
example : lagP wd { wP with lp := fun _ _ => 5 } wμ 0 = 7 ∧ lagrGrad wd { wP with lp := fun _ _ => 5 } wμ 0 = 7 ∧
    ∑ j ∈ range (wd.nh wd.N), lamDiff wd wμ wd.N j * wP.hp wd.N j 0 = 0 := by
  refine ⟨by decide +kernel, by decide +kernel, by decide +kernel⟩

/-- **C76, negation (options).**  `update_fact_exit` stays set after the call. -/
theorem C76_setup_options_false :
    ∃ (n : NlpOpts ℚ) (qp : QpOpts ℚ → Status) (o : QpOpts ℚ),
      o.updFactExit = 0 ∧ (setup n qp o).2 = .success ∧ (setup n qp o).1.updFactExit = 1 :=
  ⟨⟨0, 50, 1⟩, fun _ => .success, ⟨false, 0, 50, 0, 1, 1⟩, rfl, rfl, rfl⟩

end Acados.PSens
