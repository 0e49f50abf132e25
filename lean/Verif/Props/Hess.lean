import Verif.Model.Hess
import Verif.Spec.Hess
import Verif.Lemmas.Cost
import Verif.Props.Cost
import Mathlib.Tactic.Ring
import Mathlib.Tactic.NormNum
import Mathlib.Tactic.Linarith
/-!
# C73: the Hessian blocks of the QP are the sum of the selected contributions
-/
namespace Acados.Hess
open Finset
open Acados.Cost (LsState NlsModel NlsMem NlsOpts ConlModel ExtModel Point Ext lsRSQ nlsRSQ conlUpdate extHess HasGrad
  symL)
set_option linter.unusedSectionVars false
variable {K : Type*} [Field K] [DecidableEq K]

/-! ### Definitions used in the statements -/

/-- the request a call of the option setter expresses -/
def OptCall.req : OptCall → Req
  | .exactHess v => .all v
  | .exactHessCost v => .cost v
  | .exactHessDyn v => .dyn v
  | .exactHessConstr v => .constr v

/-- the cost module computes a Hessian: the linear least-squares module unless `fixed_hess` switched it off, the
nonlinear least-squares and the convex-over-nonlinear module unless the integrator does it -/
def Writes (o : CostOpts) : CostMod K → Prop
  | .ls .. => o.compute = true
  | .nls .. => o.integrator = false
  | .conl .. => o.integrator = false
  | _ => True

/-- the cost module leaves the Hessian to the integrator -/
def Leaves (o : CostOpts) : CostMod K → Prop
  | .nls .. => o.integrator = true
  | .conl .. => o.integrator = true
  | _ => False

/-- Hessian of the cost of a stage on its own: what the cost module writes into an empty block; `gn`: Gauss-Newton -/
def costAlone (gn : Bool) (c : CostMod K) : Option (Blk K) :=
  costWrite ⟨false, gn, true, false⟩ (fun _ _ => 0) c

/-- the Hessian contribution of the cost of a stage: from the integrator, scaled, or from the cost module -/
def CostPart (gn : Bool) (m : StageMods K) (a : Blk K) : Prop :=
  match m.dyn with
  | some dm => if dm.costComputation then (∀ i j, a i j = dm.scaling * dm.costH i j)
      else costAlone gn m.cost = some a
  | none => costAlone gn m.cost = some a

/-- the second-order term of the dynamics of a stage -/
def dynPartH (m : StageMods K) : Blk K := match m.dyn with
  | some dm => dm.H
  | none => fun _ _ => 0

/-- the second-order term of the nonlinear constraints.  Constraints `h` (exact term on request, `want`): zero without
nonlinear constraints.  Constraints `φ(r)`: always the generalised Gauss-Newton term, the curvature of `φ` in the
directions of the Jacobian of `r`, weighted with the multipliers of the upper bounds. -/
def conPartH (want : Bool) : ConMod K → Blk K
  | .bgp nb ng nphi nr lam jr hphi => gaussNewtonTerm nphi nr (fun p => lam (nb + ng + nphi + (nb + ng) + p))
      (fun c i => jr i c) (fun p c d => hphi (nr * p + c) d)
  | .bgh nb ng nh nz lam hux hzz dz =>
      select (want && decide (0 < nh)) (conHess (.bgh nb ng nh nz lam hux hzz dz))

/-- no constraints of the form `φ(r)` -/
def NoPhi : ConMod K → Prop
  | .bgp _ _ nphi _ _ _ _ => nphi = 0
  | .bgh .. => True

/-- configuration consistent with the generated code: a cost is left to the integrator exactly where the integrator
propagates it, and the terminal stage has no integrator -/
def Consistent (integ : Bool) (m : StageMods K) : Prop :=
  match m.dyn with
  | some dm => if integ then dm.costComputation = true ∧ Leaves ⟨false, true, true, true⟩ m.cost
      else dm.costComputation = false
  | none => integ = false

/-! ### Lemmas -/

theorem syrk_split (ny : Nat) (al : K) (A : Nat → Nat → K) (b : Bool) (C : Blk K) (i j : Nat) (h : j ≤ i) :
    Cost.syrk ny al A (if b then 1 else 0) C i j
      = (if b then C i j else 0) + Cost.syrk ny al A 0 (fun _ _ => 0) i j := by
  simp only [Cost.syrk, if_pos h]
  cases b <;> simp <;> ring

theorem costWrite_split (o : CostOpts) (prev : Blk K) (c : CostMod K) (hw : Writes o c) (r : Blk K)
    (h : costWrite o prev c = some r) :
    ∃ a, costAlone o.gaussNewton c = some a ∧ ∀ i j, j ≤ i → r i j = (if o.add then prev i j else 0) + a i j := by
  cases c with
  | ls d s p =>
    simp only [Writes] at hw
    simp only [costWrite, hw, if_true, Option.some.injEq] at h
    refine ⟨_, rfl, fun i j hij => ?_⟩
    simp only [if_true]
    rw [← h]
    unfold lsRSQ
    split
    · simp only
      rw [syrk_split _ _ _ _ _ _ _ hij, syrk_split _ _ _ false _ _ _ hij]
      simp [Cost.lsTimesChol]
    · cases o.add <;> simp
  | nls d m mem p =>
    simp only [Writes] at hw
    simp only [costWrite, hw, Bool.false_eq_true, if_false] at h
    simp only [costAlone, costWrite, Bool.false_eq_true, if_false]
    unfold nlsRSQ at h ⊢
    simp only at h ⊢
    split
    · next hg =>
      rw [if_pos hg, Option.some.injEq] at h
      refine ⟨_, rfl, fun i j hij => ?_⟩
      rw [← h, syrk_split _ _ _ _ _ _ _ hij, syrk_split _ _ _ false _ _ _ hij]
      simp [Cost.nlsTimesChol]
    · next hg =>
      rw [if_neg hg] at h
      split at h
      · cases h
      · next hz =>
        rw [if_neg hz]
        rw [Option.some.injEq] at h
        refine ⟨_, rfl, fun i j hij => ?_⟩
        rw [← h]
        simp only
        rw [syrk_split _ _ _ _ _ _ _ hij, syrk_split _ _ _ false _ _ _ hij]
        simp [Cost.nlsTimesChol]
        ring
  | conl d e m p =>
    simp only [Writes] at hw
    simp only [costWrite, hw, Bool.false_eq_true, if_false, Option.some.injEq] at h
    refine ⟨_, rfl, fun i j hij => ?_⟩
    rw [← h]
    simp only [conlUpdate, Bool.false_eq_true, if_false]
    rw [syrk_split _ _ _ _ _ _ _ hij]
  | ext d oob m p =>
    simp only [costWrite, Option.some.injEq] at h
    refine ⟨_, rfl, fun i j hij => ?_⟩
    rw [← h]
    cases o.add <;> simp
  | extNum s H =>
    simp only [costWrite, Option.some.injEq] at h
    refine ⟨_, rfl, fun i j hij => ?_⟩
    rw [← h]
    cases o.add <;> simp

theorem costWrite_leaves (o : CostOpts) (prev : Blk K) (c : CostMod K) (hl : Leaves o c) :
    costWrite o prev c = some prev := by
  cases c <;> simp_all [Leaves, costWrite]

theorem scqp_fold (nb ng nphi nr n : Nat) (lam : Nat → K) (jr hphi : Nat → Nat → K) (prev : Blk K) (i j : Nat)
    (hij : j ≤ i) :
    (List.range n).foldl (scqpStep nb ng nphi nr lam jr hphi) prev i j
      = prev i j + gaussNewtonTerm n nr (fun p => lam (nb + ng + nphi + (nb + ng) + p))
          (fun c i => jr i c) (fun p c d => hphi (nr * p + c) d) i j := by
  induction n with
  | zero => simp [gaussNewtonTerm]
  | succ n ih =>
    rw [List.range_succ, List.foldl_append, List.foldl_cons, List.foldl_nil, scqpStep]
    simp only [if_pos hij]
    rw [ih, gaussNewtonTerm, gaussNewtonTerm, sum_range_succ, add_assoc]
    congr 2
    rw [show 2 * (nb + ng) + nphi + n = nb + ng + nphi + (nb + ng) + n by omega, mul_sum]
    refine sum_congr rfl fun c _ => ?_
    rw [mul_assoc]
    congr 2
    exact sum_congr rfl fun d _ => mul_comm _ _

theorem conWrite_split (b : Bool) (prev : Blk K) (c : ConMod K) (r : Blk K) (h : conWrite b prev c = some r) :
    ∀ i j, j ≤ i → r i j = prev i j + conPartH b c i j := by
  intro i j hij
  cases c with
  | bgp nb ng nphi nr lam jr hphi =>
    cases b with
    | true => simp [conWrite] at h
    | false =>
      simp only [conWrite, Bool.false_eq_true, if_false, Option.some.injEq] at h
      rw [← h, scqp_fold _ _ _ _ _ _ _ _ _ _ _ hij]
      rfl
  | bgh nb ng nh nz lam hux hzz dz =>
    simp only [conWrite, Option.some.injEq] at h
    rw [← h]
    by_cases h0 : 0 < nh <;> cases b <;> simp [select, conPartH, h0]

theorem costSetExact_spec (v : Bool) (o : CostOpts) (c : CostMod K) (o' : CostOpts) (h : costSetExact v o c = some o') :
    o'.add = o.add ∧ o'.compute = o.compute ∧ o'.integrator = o.integrator := by
  cases c <;> simp only [costSetExact, Option.some.injEq, reduceCtorEq] at h <;> subst h <;> simp

theorem setAll_append (t : Bool) (c : CostMod K) (o : StageOpts) (l l' : List OptCall) :
    setAll t c o (l ++ l') = (setAll t c o l).bind fun o' => setAll t c o' l' := by
  simp [setAll, List.foldlM_append]

theorem setAll_nil (t : Bool) (c : CostMod K) (o : StageOpts) : setAll t c o [] = some o := rfl

theorem setAll_cons (t : Bool) (c : CostMod K) (o : StageOpts) (x : OptCall) (l : List OptCall) :
    setAll t c o (x :: l) = (setStage t c o x).bind fun o' => setAll t c o' l := by
  simp [setAll, List.foldlM_cons]

/-- invariant of the option flags -/
theorem setStage_inv (t : Bool) (c : CostMod K) (o : StageOpts) (x : OptCall) (o' : StageOpts)
    (h : setStage t c o x = some o') :
    o'.cost.compute = o.cost.compute ∧ o'.cost.integrator = o.cost.integrator
    ∧ (t = true → o'.cost.add = o.cost.add ∧ o'.dynHess = o.dynHess)
    ∧ (t = false → (o.cost.add = true → o.dynHess = true) → (o'.cost.add = true → o'.dynHess = true)) := by
  cases x with
  | exactHess v =>
    simp only [setStage, Option.map_eq_some_iff] at h
    obtain ⟨co, h1, rfl⟩ := h
    obtain ⟨a1, a2, a3⟩ := costSetExact_spec _ _ _ _ h1
    cases t <;> simp [a1, a2, a3]
  | exactHessCost v =>
    simp only [setStage, Option.map_eq_some_iff] at h
    obtain ⟨co, h1, rfl⟩ := h
    obtain ⟨a1, a2, a3⟩ := costSetExact_spec _ _ _ _ h1
    simp [a1, a2, a3]
  | exactHessDyn v =>
    simp only [setStage, Option.some.injEq] at h
    subst h
    cases t <;> cases v <;> simp
  | exactHessConstr v =>
    simp only [setStage, Option.some.injEq] at h
    subst h
    simp

theorem setAll_inv (t : Bool) (c : CostMod K) (l : List OptCall) (o o' : StageOpts) (h : setAll t c o l = some o') :
    o'.cost.compute = o.cost.compute ∧ o'.cost.integrator = o.cost.integrator
    ∧ (t = true → o'.cost.add = o.cost.add ∧ o'.dynHess = o.dynHess)
    ∧ (t = false → (o.cost.add = true → o.dynHess = true) → (o'.cost.add = true → o'.dynHess = true)) := by
  induction l generalizing o with
  | nil =>
    simp only [setAll, List.foldlM_nil] at h
    cases h
    simp
  | cons x l ih =>
    rw [setAll_cons, Option.bind_eq_some_iff] at h
    obtain ⟨o1, h1, h2⟩ := h
    obtain ⟨a1, a2, a3, a4⟩ := setStage_inv t c o x o1 h1
    obtain ⟨b1, b2, b3, b4⟩ := ih o1 h2
    exact ⟨b1.trans a1, b2.trans a2, fun ht => ⟨(b3 ht).1.trans (a3 ht).1, (b3 ht).2.trans (a3 ht).2⟩,
      fun ht hh => b4 ht (a4 ht hh)⟩

/-- the flags follow the last request -/
theorem setAll_want (t : Bool) (c : CostMod K) (l : List OptCall) (o o' : StageOpts) (h : setAll t c o l = some o') :
    o'.conHess = wantConstr o.conHess (l.map OptCall.req)
    ∧ (t = false → o'.dynHess = wantDyn o.dynHess (l.map OptCall.req))
    ∧ (∀ d m mem p, c = .nls d m mem p → o'.cost.gaussNewton = !wantCost (!o.cost.gaussNewton) (l.map OptCall.req)) := by
  induction l generalizing o with
  | nil =>
    simp only [setAll, List.foldlM_nil] at h
    cases h
    simp [wantConstr, wantDyn, wantCost]
  | cons x l ih =>
    rw [setAll_cons, Option.bind_eq_some_iff] at h
    obtain ⟨o1, h1, h2⟩ := h
    obtain ⟨b1, b2, b3⟩ := ih o1 h2
    cases x with
    | exactHess v =>
      simp only [setStage, Option.map_eq_some_iff] at h1
      obtain ⟨co, h1, rfl⟩ := h1
      refine ⟨b1, fun ht => by rw [b2 ht]; simp [ht, OptCall.req, wantDyn], fun d m mem p hc => ?_⟩
      rw [b3 d m mem p hc]
      subst hc
      simp only [costSetExact, Option.some.injEq] at h1
      subst h1
      cases t <;> cases v <;> simp [OptCall.req, wantCost]
    | exactHessCost v =>
      simp only [setStage, Option.map_eq_some_iff] at h1
      obtain ⟨co, h1, rfl⟩ := h1
      refine ⟨b1, fun ht => by rw [b2 ht]; simp [OptCall.req, wantDyn], fun d m mem p hc => ?_⟩
      rw [b3 d m mem p hc]
      subst hc
      simp only [costSetExact, Option.some.injEq] at h1
      subst h1
      cases v <;> simp [OptCall.req, wantCost]
    | exactHessDyn v =>
      simp only [setStage, Option.some.injEq] at h1
      subst h1
      refine ⟨?_, fun ht => ?_, fun d m mem p hc => ?_⟩
      · rw [b1]; cases t <;> simp [OptCall.req, wantConstr]
      · rw [b2 ht]; simp [ht, OptCall.req, wantDyn]
      · rw [b3 d m mem p hc]; cases t <;> cases v <;> simp [OptCall.req, wantCost]
    | exactHessConstr v =>
      simp only [setStage, Option.some.injEq] at h1
      subst h1
      exact ⟨by rw [b1]; simp [OptCall.req, wantConstr], fun ht => by rw [b2 ht]; simp [OptCall.req, wantDyn],
        fun d m mem p hc => by rw [b3 d m mem p hc]; simp [OptCall.req, wantCost]⟩

/-- the block in terms of the flags -/
theorem stage_sum (o : StageOpts) (m : StageMods K) (prev r : Blk K) (hc : o.cost.compute = true)
    (hcons : Consistent o.cost.integrator m) (hinv : o.cost.add = true → o.dynHess = true ∧ m.dyn.isSome = true)
    (h : stage o m prev = some r) :
    ∃ a, CostPart o.cost.gaussNewton m a ∧
      ∀ i j, j ≤ i → r i j = select o.cost.add (dynPartH m) i j + a i j + conPartH o.conHess m.con i j := by
  simp only [stage, Option.bind_eq_some_iff] at h
  obtain ⟨rc, h1, h2⟩ := h
  have h2 := conWrite_split _ _ _ _ h2
  by_cases hint : o.cost.integrator = true
  · -- the integrator propagates the cost
    cases hd : m.dyn with
    | none => simp [Consistent, hd, hint] at hcons
    | some dm =>
      simp only [Consistent, hd, hint, if_true] at hcons
      obtain ⟨hcc, hl⟩ := hcons
      have hl' : Leaves o.cost m.cost := by
        cases hm : m.cost <;> simp_all [Leaves]
      rw [costWrite_leaves _ _ _ hl', Option.some.injEq] at h1
      refine ⟨fun i j => dm.scaling * dm.costH i j, by simp [CostPart, hd, hcc], fun i j hij => ?_⟩
      rw [h2 i j hij, ← h1]
      simp only [dynPart, hd, dynWrite, hcc, if_true, dynPartH]
      cases ha : o.cost.add with
      | false => simp [select]
      | true => simp [select, (hinv ha).1]
  · simp only [Bool.not_eq_true] at hint
    have hw : Writes o.cost m.cost := by
      cases hm : m.cost <;> simp_all [Writes]
    obtain ⟨a, ha1, ha2⟩ := costWrite_split _ _ _ hw _ h1
    refine ⟨a, ?_, fun i j hij => ?_⟩
    · cases hd : m.dyn with
      | none => simp [CostPart, hd, ha1]
      | some dm =>
        simp [Consistent, hd, hint] at hcons
        simp [CostPart, hd, hcons, ha1]
    · rw [h2 i j hij, ha2 i j hij]
      cases ha : o.cost.add with
      | false => simp [select]
      | true =>
        obtain ⟨g1, g2⟩ := hinv ha
        obtain ⟨dm, hd⟩ := Option.isSome_iff_exists.1 g2
        simp [Consistent, hd, hint] at hcons
        simp [select, dynPart, dynPartH, hd, dynWrite, hcons, g1]

/-! ### Theorems -/

/-- **C73** (no stale content): whatever option calls were made, at every stage the block after the linearisation does
not depend on what was in it before (the QP data of the previous iteration, a regularised or scaled block). -/
theorem C73_no_stale (integ : Bool) (m : StageMods K) (ops : List OptCall) (o : StageOpts)
    (ho : setAll m.dyn.isNone m.cost (defaultStage integ) ops = some o) (hcons : Consistent integ m)
    (p p' r r' : Blk K) (h : stage o m p = some r) (h' : stage o m p' = some r') :
    ∀ i j, j ≤ i → r i j = r' i j := by
  obtain ⟨a1, a2, a3, a4⟩ := setAll_inv _ _ _ _ _ ho
  have hinv : o.cost.add = true → o.dynHess = true ∧ m.dyn.isSome = true := by
    intro ha
    cases hd : m.dyn with
    | none => rw [hd] at a3; have := (a3 rfl).1; rw [ha] at this; cases this
    | some dm =>
      rw [hd] at a4
      exact ⟨a4 rfl (by simp [defaultStage]) ha, rfl⟩
  have hcons' : Consistent o.cost.integrator m := by rw [a2]; exact hcons
  obtain ⟨a, ha, e⟩ := stage_sum o m p r a1 hcons' hinv h
  obtain ⟨b, hb, e'⟩ := stage_sum o m p' r' a1 hcons' hinv h'
  intro i j hij
  rw [e i j hij, e' i j hij]
  have : a i j = b i j := by
    unfold CostPart at ha hb
    cases hd : m.dyn with
    | none => simp only [hd] at ha hb; rw [ha] at hb; cases hb; rfl
    | some dm =>
      simp only [hd] at ha hb
      split at ha
      · next hc => rw [if_pos hc] at hb; rw [ha, hb]
      · next hc => rw [if_neg hc] at hb; rw [ha] at hb; cases hb; rfl
  rw [this]

/-- the flags that decide about the dynamics after a history of calls: computed according to the last request; entering
the block only if computed -/
theorem setAll_add (c : CostMod K) (integ : Bool) (ops : List OptCall) (o : StageOpts)
    (ho : setAll false c (defaultStage integ) ops = some o)
    (hon : ∀ p q, ops = p ++ .exactHessDyn true :: q → wantDyn false (p.map OptCall.req) = true) :
    o.cost.add = wantDyn false (ops.map OptCall.req) := by
  induction ops using List.reverseRecOn generalizing o with
  | nil =>
    simp only [setAll, List.foldlM_nil] at ho
    cases ho
    rfl
  | append_singleton l x ih =>
    rw [setAll_append, Option.bind_eq_some_iff] at ho
    obtain ⟨o1, h1, h2⟩ := ho
    have ih' := ih o1 h1 (fun p q hpq => hon p (q ++ [x]) (by rw [hpq]; simp))
    rw [setAll_cons, Option.bind_eq_some_iff] at h2
    obtain ⟨o2, h2, h3⟩ := h2
    simp only [setAll, List.foldlM_nil] at h3
    cases h3
    have hw : ∀ (l : List OptCall) (b : Bool) (y : OptCall), wantDyn b ((l ++ [y]).map OptCall.req)
        = (match y with
          | .exactHess v => v
          | .exactHessDyn v => v
          | _ => wantDyn b (l.map OptCall.req)) := by
      intro l
      induction l with
      | nil => intro b y; cases y <;> rfl
      | cons z l ihl =>
        intro b y
        cases z <;> simp only [List.cons_append, List.map_cons, OptCall.req, wantDyn] <;> exact ihl _ y
    rw [hw]
    cases x with
    | exactHess v =>
      simp only [setStage, Option.map_eq_some_iff] at h2
      obtain ⟨co, _, rfl⟩ := h2
      rfl
    | exactHessCost v =>
      simp only [setStage, Option.map_eq_some_iff] at h2
      obtain ⟨co, hco, rfl⟩ := h2
      rw [← ih', ← (costSetExact_spec _ _ _ _ hco).1]
    | exactHessDyn v =>
      simp only [setStage, Option.some.injEq] at h2
      subst h2
      cases v with
      | false => rfl
      | true => simp only [Bool.false_eq_true, if_false, if_true]; rw [ih', hon l [] rfl]
    | exactHessConstr v =>
      simp only [setStage, Option.some.injEq] at h2
      subst h2
      exact ih'

/-- **C73** (part): the block of every stage is the sum of the cost Hessian (exact or Gauss-Newton, whichever was requested
last; only the nonlinear least-squares module has both), the dynamics term if it was requested last and the constraint
term if it was requested last — for every sequence of option calls in which `exact_hess_dyn = 1` is only written while
the dynamics term is on already.  Without that condition the statement is false, see `C73_toggle_loses_dynamics`. -/
theorem C73_block_partial (integ : Bool) (m : StageMods K) (ops : List OptCall) (o : StageOpts)
    (ho : setAll m.dyn.isNone m.cost (defaultStage integ) ops = some o) (hcons : Consistent integ m)
    (hon : ∀ p q, ops = p ++ .exactHessDyn true :: q → wantDyn false (p.map OptCall.req) = true)
    (prev r : Blk K) (h : stage o m prev = some r) :
    ∃ gn a, CostPart gn m a
      ∧ (∀ d nm mem p, m.cost = .nls d nm mem p → gn = !wantCost false (ops.map OptCall.req))
      ∧ ∀ i j, j ≤ i → r i j = select (wantDyn false (ops.map OptCall.req)) (dynPartH m) i j + a i j
        + conPartH (wantConstr false (ops.map OptCall.req)) m.con i j := by
  obtain ⟨a1, a2, a3, a4⟩ := setAll_inv _ _ _ _ _ ho
  obtain ⟨w1, w2, w3⟩ := setAll_want _ _ _ _ _ ho
  have hinv : o.cost.add = true → o.dynHess = true ∧ m.dyn.isSome = true := by
    intro ha
    cases hd : m.dyn with
    | none => rw [hd] at a3; have := (a3 rfl).1; rw [ha] at this; cases this
    | some dm =>
      rw [hd] at a4
      exact ⟨a4 rfl (by simp [defaultStage]) ha, rfl⟩
  have hcons' : Consistent o.cost.integrator m := by rw [a2]; exact hcons
  obtain ⟨a, ha, e⟩ := stage_sum o m prev r a1 hcons' hinv h
  refine ⟨_, a, ha, fun d nm mem p hm => w3 d nm mem p hm, fun i j hij => ?_⟩
  rw [e i j hij, w1]
  congr 2
  cases hd : m.dyn with
  | none => simp [select, dynPartH, hd]
  | some dm =>
    rw [hd] at ho
    rw [setAll_add m.cost integ ops o ho hon]

/-- **C73** for the generated code (`acados_solver.in.c` 2489-2501): after `exact_hess = 1` followed by arbitrary values
of `exact_hess_dyn`, `exact_hess_cost` and `exact_hess_constr`, whatever was set before, the block is the sum of exactly
the selected terms. -/
theorem C73_generated_code (integ : Bool) (m : StageMods K) (ops : List OptCall) (a b c : Bool) (o : StageOpts)
    (ho : setAll m.dyn.isNone m.cost (defaultStage integ)
      (ops ++ [.exactHess true, .exactHessDyn a, .exactHessCost b, .exactHessConstr c]) = some o)
    (hcons : Consistent integ m) (prev r : Blk K) (h : stage o m prev = some r) :
    ∃ gn H, CostPart gn m H ∧ (∀ d nm mem p, m.cost = .nls d nm mem p → gn = !b)
      ∧ ∀ i j, j ≤ i → r i j = select a (dynPartH m) i j + H i j + conPartH c m.con i j := by
  obtain ⟨a1, a2, a3, a4⟩ := setAll_inv _ _ _ _ _ ho
  have hinv : o.cost.add = true → o.dynHess = true ∧ m.dyn.isSome = true := by
    intro ha
    cases hd : m.dyn with
    | none => rw [hd] at a3; have := (a3 rfl).1; rw [ha] at this; cases this
    | some dm =>
      rw [hd] at a4
      exact ⟨a4 rfl (by simp [defaultStage]) ha, rfl⟩
  have hcons' : Consistent o.cost.integrator m := by rw [a2]; exact hcons
  obtain ⟨H, hH, e⟩ := stage_sum o m prev r a1 hcons' hinv h
  rw [setAll_append, Option.bind_eq_some_iff] at ho
  obtain ⟨o1, _, h2⟩ := ho
  obtain ⟨w1, w2, w3⟩ := setAll_want _ _ _ _ _ h2
  refine ⟨_, H, hH, fun d nm mem p hm => ?_, fun i j hij => ?_⟩
  · rw [w3 d nm mem p hm]
    rfl
  · rw [e i j hij, w1]
    simp only [List.map, OptCall.req, wantConstr]
    congr 2
    cases hd : m.dyn with
    | none => simp [select, dynPartH, hd]
    | some dm =>
      rw [hd] at h2
      simp only [setAll_cons, setStage, Option.isNone_some, Option.bind_eq_some_iff, Option.map_eq_some_iff,
        Option.some.injEq, setAll_nil] at h2
      obtain ⟨o2, ⟨c2, _, rfl⟩, o3, rfl, o4, ⟨c4, h4, rfl⟩, o5, rfl, rfl⟩ := h2
      have := (costSetExact_spec _ _ _ _ h4).1
      congr 1
      cases a <;> simpa using this

/-- **C73** is false of the code in general: after `exact_hess = 1`, `exact_hess_dyn = 0`, `exact_hess_dyn = 1` the
dynamics term is computed but overwritten by the cost module, because the second call does not restore
`add_hess_contribution` (ocp_nlp_common.c:1530-1534).  The same happens when `exact_hess_dyn = 1` is the only call. -/
theorem C73_toggle_loses_dynamics (integ : Bool) (m : StageMods K) (dm : DynMod K) (hd : m.dyn = some dm)
    (hcons : Consistent integ m) (ops : List OptCall)
    (hops : ops = [.exactHessDyn true] ∨ ∃ l, ops = l ++ [.exactHessDyn false, .exactHessDyn true]) (o : StageOpts)
    (ho : setAll m.dyn.isNone m.cost (defaultStage integ) ops = some o) (prev r : Blk K)
    (h : stage o m prev = some r) :
    o.dynHess = true ∧ wantDyn false (ops.map OptCall.req) = true ∧
    ∃ gn a, CostPart gn m a ∧ ∃ c, ∀ i j, j ≤ i → r i j = a i j + conPartH c m.con i j := by
  obtain ⟨a1, a2, a3, a4⟩ := setAll_inv _ _ _ _ _ ho
  obtain ⟨w1, w2, w3⟩ := setAll_want _ _ _ _ _ ho
  have hcons' : Consistent o.cost.integrator m := by rw [a2]; exact hcons
  have key : o.cost.add = false ∧ o.dynHess = true := by
    rw [hd] at ho
    rcases hops with rfl | ⟨l, rfl⟩
    · simp only [setAll_cons, setStage, Option.isNone_some, Option.bind_eq_some_iff,
        Option.some.injEq, setAll_nil] at ho
      obtain ⟨o1, rfl, rfl⟩ := ho
      exact ⟨rfl, rfl⟩
    · rw [setAll_append, Option.bind_eq_some_iff] at ho
      obtain ⟨o0, _, ho⟩ := ho
      simp only [setAll_cons, setStage, Option.isNone_some, Option.bind_eq_some_iff,
        Option.some.injEq, setAll_nil] at ho
      obtain ⟨o1, rfl, o2, rfl, rfl⟩ := ho
      exact ⟨rfl, rfl⟩
  obtain ⟨a, ha, e⟩ := stage_sum o m prev r a1 hcons' (by rw [key.1]; simp) h
  refine ⟨key.2, ?_, _, a, ha, o.conHess, fun i j hij => ?_⟩
  · rw [hd] at w2
    exact (w2 rfl).symm.trans key.2
  · rw [e i j hij, key.1]
    simp [select]

/-- **C73** (Lagrangian): with all exact terms on, the block is the derivative of the stationarity residual of the
stage, `∇cost + (∂φ)ᵀ π + (∂h)ᵀ (λ_upper - λ_lower) + const`, with respect to the controls and states — the residual the
solver reports and drives to zero (C29).  `g`, `B`, `D` are cost gradient, transposed dynamics Jacobian and transposed
constraint Jacobian as functions of the stage variables; the hypotheses say that the modules deliver their derivatives
(rows of symmetric matrices). -/
theorem C73_lagrangian (n nx1 nh nb ng : Nat) (o : StageOpts) (dm : DynMod ℝ) (cost : CostMod ℝ) (lam pi const : Nat → ℝ)
    (hux hzz : (Nat → ℝ) → Blk ℝ) (dz : Nat → Nat → ℝ) (nhpos : 0 < nh)
    (hexact : o.dynHess = true ∧ o.cost.add = true ∧ o.conHess = true ∧ o.cost.gaussNewton = false
      ∧ o.cost.compute = true ∧ o.cost.integrator = false) (hcc : dm.costComputation = false)
    (g : (Nat → ℝ) → Nat → ℝ) (B D : (Nat → ℝ) → Nat → Nat → ℝ) (w : Nat → ℝ) (a : Blk ℝ)
    (ha : costAlone false cost = some a)
    (hg : ∀ i < n, HasGrad n (fun v => g v i) (fun j => symL a i j) w)
    (hB : ∀ i < n, HasGrad n (fun v => ∑ c ∈ range nx1, B v i c * pi c) (fun j => symL dm.H i j) w)
    (hD : ∀ mu i, i < n → HasGrad n (fun v => ∑ k ∈ range nh, D v i k * mu k) (fun j => symL (hux mu) i j) w)
    (prev r : Blk ℝ) (h : stage o ⟨some dm, cost, .bgh nb ng nh 0 lam hux hzz dz⟩ prev = some r) :
    ∀ i < n, HasGrad n
      (fun v => g v i + ∑ c ∈ range nx1, B v i c * pi c
        + ∑ k ∈ range nh, D v i k * (lam (nb + ng + nh + (nb + ng) + k) - lam (nb + ng + k)) + const i)
      (fun j => symL r i j) w := by
  intro i hi
  obtain ⟨e1, e2, e3, e4, e5, e6⟩ := hexact
  obtain ⟨a', ha', e⟩ := stage_sum o _ prev r e5 (by rw [e6]; simpa [Consistent] using hcc) (fun _ => ⟨e1, rfl⟩) h
  have haa : a' = a := by
    simp only [CostPart, hcc, Bool.false_eq_true, if_false, e4] at ha'
    rw [ha] at ha'
    cases ha'
    rfl
  subst haa
  have hmu : (fun k => lam (nb + ng + nh + (nb + ng) + k) - lam (nb + ng + k)) = hMult nb ng nh lam := by
    funext k
    simp only [hMult]
    rw [show nb + ng + nh + (nb + ng) + k = 2 * nb + 2 * ng + nh + k by ring]
    ring
  have hD' := hD (hMult nb ng nh lam) i hi
  simp only [← hmu] at hD'
  refine ((((hg i hi).add (hB i hi)).add hD').add (HasGrad.const (const i) w)).congr fun j _ => ?_
  have hh : ∀ i j, j ≤ i → r i j = dm.H i j + a' i j + hux (hMult nb ng nh lam) i j := by
    intro i j hij
    rw [e i j hij, e2, e3]
    simp [select, dynPartH, conPartH, nhpos, conHess]
  simp only [symL]
  split
  · next hij => rw [hh i j hij, hmu]; ring
  · next hij => rw [hh j i (by omega), hmu]; ring

/-- **C73** (constraint part): without mixed derivatives in `(u, x)` and `z` the constraint module contributes the
Hessian in `(u, x)` of the multiplier-weighted constraint, multipliers upper minus lower, with `z` eliminated to first
order; for every number of algebraic variables. -/
theorem C73_constraint_part (nb ng nh nz : Nat) (lam : Nat → K) (hux hzz : (Nat → K) → Blk K) (dz : Nat → Nat → K)
    (i j : Nat) :
    conHess (.bgh nb ng nh nz lam hux hzz dz) i j
      = Cost.projHess nz (hux fun k => lam (nb + ng + nh + (nb + ng) + k) - lam (nb + ng + k))
          (hzz fun k => lam (nb + ng + nh + (nb + ng) + k) - lam (nb + ng + k)) (fun _ _ => 0) dz i j := by
  have e : hMult nb ng nh lam = fun k => lam (nb + ng + nh + (nb + ng) + k) - lam (nb + ng + k) := by
    funext k
    unfold hMult
    have : 2 * nb + 2 * ng + nh + k = nb + ng + nh + (nb + ng) + k := by omega
    rw [this]; ring
  simp only [conHess, Cost.projHess, e, mul_zero, add_zero, sum_const_zero]
  rw [add_comm]
  congr 1
  refine sum_congr rfl fun k _ => ?_
  rw [mul_sum]
  exact sum_congr rfl fun l _ => by ring

/-- **C73** (cost part, Hessian given by the user): the block is the given matrix times the cost scaling. -/
theorem C73_user_hessian (gn : Bool) (s : K) (H : Blk K) :
    costAlone gn (.extNum s H) = some fun i j => s * H i j := by
  simp [costAlone, costWrite]

/-- **C73** (algebraic variables in constraints) is false of the code: the constraint contribution lacks the mixed
derivatives in `(u, x)` and `z`.  For `h(x, z) = x z` with `z = x`, multiplier `λ_upper = 1`, the second derivative of
`h(x, z(x)) = x²` is 2, the contribution 0. -/
theorem C73_constraint_mixed_terms_missing :
    ∃ (nh nz : Nat) (lam : Nat → ℚ) (hux hzz hzux : (Nat → ℚ) → Blk ℚ) (dz : Nat → Nat → ℚ),
      (∀ mu, hux mu = fun _ _ => 0) ∧ (∀ mu, hzz mu = fun _ _ => 0) ∧ (∀ mu, hzux mu = fun _ _ => mu 0)
      ∧ conHess (.bgh 0 0 nh nz lam hux hzz dz) 0 0 = 0
      ∧ Cost.projHess nz (hux (fun j => lam (nh + j) - lam j)) (hzz fun j => lam (nh + j) - lam j)
          (hzux fun j => lam (nh + j) - lam j) dz 0 0 = 2 := by
  refine ⟨1, 1, fun k => if k = 1 then 1 else 0, fun _ _ _ => 0, fun _ _ _ => 0, fun mu _ _ => mu 0, fun _ _ => 1,
    fun _ => rfl, fun _ => rfl, fun _ => rfl, ?_, ?_⟩
  · simp [conHess]
  · simp [Cost.projHess]
    norm_num

/-- **C73** (`fixed_hess`, part): with linear least-squares costs, no exact dynamics or constraint terms and no
constraints of the form `φ(r)`, the block computed at the precomputation stays what it is in every later linearisation.
With constraints `φ(r)` it does not, see `C73_fixed_accumulates_counterexample`. -/
theorem C73_fixed_partial (o o' : StageOpts) (m : StageMods K) (prev r : Blk K)
    (hno : o.dynHess = false ∧ o.conHess = false) (hcc : ∀ dm, m.dyn = some dm → dm.costComputation = false)
    (h : fixedPrecompute o m prev = some (o', r)) (m' : StageMods K)
    (hm : (∃ d s p, m'.cost = .ls d s p) ∧ m'.dyn.isSome = m.dyn.isSome
      ∧ (∀ dm, m'.dyn = some dm → dm.costComputation = false)) (hcon : NoPhi m'.con) (r' : Blk K)
    (h' : stage o' m' r = some r') : r' = r := by
  simp only [fixedPrecompute, Option.bind_eq_some_iff] at h
  obtain ⟨r0, h0, h1⟩ := h
  obtain ⟨⟨d, s, p, hm1⟩, hm2, hm3⟩ := hm
  have ho' : o'.dynHess = false ∧ o'.conHess = false ∧ o'.cost.compute = false := by
    cases hc : m.cost <;> rw [hc] at h1 <;> simp only [Option.some.injEq, Prod.mk.injEq, reduceCtorEq] at h1
    rw [← h1.1]
    exact ⟨hno.1, hno.2, rfl⟩
  simp only [stage, hm1, costWrite, ho'.2.2, Bool.false_eq_true, if_false, Option.bind_some, ho'.2.1] at h'
  have hdp : dynPart o' m' r = r := by
    unfold dynPart
    cases hd : m'.dyn with
    | none => rfl
    | some dm => simp [dynWrite, hm3 dm hd, ho'.1]
  rw [hdp] at h'
  cases hm : m'.con <;> rw [hm] at h' hcon <;> simp only [NoPhi] at hcon <;>
    simpa [conWrite, hcon, eq_comm] using h'

/-- **C73** (`fixed_hess`) is false of the code together with the exact dynamics term: from the second linearisation on
the cost Hessian is gone (the Python interface rejects this combination, the C interface accepts it). -/
theorem C73_fixed_loses_cost (m : StageMods K) (dm : DynMod K) (hd : m.dyn = some dm) (hcc : dm.costComputation = false)
    (o o' : StageOpts) (hdyn : o.dynHess = true) (hcon : o.conHess = false) (hphi : NoPhi m.con) (prev r r' : Blk K)
    (h : fixedPrecompute o m prev = some (o', r)) (h' : stage o' m r = some r') : r' = dm.H := by
  simp only [fixedPrecompute, Option.bind_eq_some_iff] at h
  obtain ⟨r0, h0, h1⟩ := h
  cases hc : m.cost <;> rw [hc] at h1 <;> simp only [Option.some.injEq, Prod.mk.injEq, reduceCtorEq] at h1
  obtain ⟨rfl, rfl⟩ := h1
  simp only [stage, hc, costWrite, Bool.false_eq_true, if_false, Option.bind_some, dynPart, hd, dynWrite, hdyn, if_true,
    hcc, hcon] at h'
  cases hm : m.con <;> rw [hm] at h' hphi <;> simp only [NoPhi] at hphi <;> simpa [conWrite, hphi, eq_comm] using h'

/-- a stage with the linear least-squares Hessian 3 and one constraint `φ(r)` with `r(w) = w`, `φ'' = 2`, multiplier of the
upper bound `l` -/
def exFixed (l : ℚ) : StageMods ℚ :=
  ⟨none, .ls ⟨1, 0, 0, 1, 0⟩ ⟨⟨fun _ _ => 0, fun _ _ => 0, fun _ _ => 0, fun _ => 0, fun _ => 0, fun _ => 0, 1, false,
      false, false⟩, ⟨fun _ _ => 3, fun _ _ => 0, fun _ => 0, fun _ => 0, fun _ _ => 0, fun _ => 0, 0⟩⟩
      ⟨fun _ => 0, fun _ => 0, fun _ _ => 0⟩,
    .bgp 0 0 1 1 (fun k => if k = 1 then l else 0) (fun _ _ => 1) (fun _ _ => 2)⟩

/-- **C73** (`fixed_hess`) is false of the code with constraints of the form `φ(r)`: the constraint module adds its term
to the block in every linearisation, and no module overwrites the block any more (ocp_nlp_constraints_bgp.c:1301-1313
does not look at any option).  At the same point and with the same multiplier 1 the block goes from 3 to 5, 7 and so on:
after `n` linearisations it is `3 + 2 n`. -/
theorem C73_fixed_accumulates_counterexample :
    ∃ (o : StageOpts) (r0 : Blk ℚ), fixedPrecompute (defaultStage false) (exFixed 0) (fun _ _ => 8) = some (o, r0)
      ∧ r0 0 0 = 3
      ∧ ∀ (n : Nat) (blk : Nat → Blk ℚ), blk 0 = r0 → (∀ k < n, stage o (exFixed 1) (blk k) = some (blk (k + 1))) →
        blk n 0 0 = 3 + 2 * n := by
  have hmain : ∀ (o : StageOpts), o.cost.compute = false → o.conHess = false →
      ∀ r0 : Blk ℚ, r0 0 0 = 3 → ∀ (n : Nat) (blk : Nat → Blk ℚ), blk 0 = r0 →
        (∀ k < n, stage o (exFixed 1) (blk k) = some (blk (k + 1))) → blk n 0 0 = 3 + 2 * n := by
    intro o h1 h2 r0 h3 n
    induction n with
    | zero =>
      intro blk hb _
      rw [hb, h3]
      norm_num
    | succ n ih =>
      intro blk hb hs
      have h := ih blk hb (fun k hk => hs k (by omega))
      have hn := hs n (by omega)
      simp only [stage, exFixed, dynPart, costWrite, h1, h2, Bool.false_eq_true, if_false, Option.bind_some] at hn
      have := conWrite_split _ _ _ _ hn 0 0 (le_refl _)
      rw [this, h]
      simp [conPartH, gaussNewtonTerm]
      ring
  refine ⟨_, _, rfl, ?_, hmain _ rfl rfl _ ?_⟩ <;> norm_num [exFixed, dynPart, lsRSQ, scqpStep, List.range_succ, defaultStage]

/-- **C73** (constraints `φ(r)`): the term is positive semidefinite whenever the multipliers of the upper bounds are
nonnegative and the Hessians of the components of `φ` are positive semidefinite (`φ` convex) — for every direction. -/
theorem C73_convex_constraint_psd {F : Type*} [Field F] [LinearOrder F] [IsStrictOrderedRing F] (want : Bool)
    (n nb ng nphi nr : Nat) (lam : Nat → F) (jr hphi : Nat → Nat → F)
    (hl : ∀ p < nphi, 0 ≤ lam (nb + ng + nphi + (nb + ng) + p))
    (hH : ∀ p < nphi, ∀ w : Nat → F, 0 ≤ ∑ c ∈ range nr, ∑ d ∈ range nr, w c * hphi (nr * p + c) d * w d) (v : Nat → F) :
    0 ≤ ∑ i ∈ range n, ∑ j ∈ range n, v i * conPartH want (.bgp nb ng nphi nr lam jr hphi) i j * v j := by
  have key : ∑ i ∈ range n, ∑ j ∈ range n, v i * conPartH want (.bgp nb ng nphi nr lam jr hphi) i j * v j
      = ∑ p ∈ range nphi, lam (nb + ng + nphi + (nb + ng) + p)
        * ∑ c ∈ range nr, ∑ d ∈ range nr, (∑ j ∈ range n, jr j c * v j) * hphi (nr * p + c) d
          * (∑ i ∈ range n, jr i d * v i) := by
    simp only [conPartH, gaussNewtonTerm]
    have e1 : ∀ i j, v i * (∑ p ∈ range nphi, lam (nb + ng + nphi + (nb + ng) + p)
          * ∑ c ∈ range nr, (∑ d ∈ range nr, hphi (nr * p + c) d * jr i d) * jr j c) * v j
        = ∑ p ∈ range nphi, lam (nb + ng + nphi + (nb + ng) + p)
          * ∑ c ∈ range nr, ∑ d ∈ range nr, jr j c * v j * hphi (nr * p + c) d * (jr i d * v i) := by
      intro i j
      rw [mul_sum, sum_mul]
      refine sum_congr rfl fun p _ => ?_
      rw [mul_sum, mul_sum, mul_sum, sum_mul]
      refine sum_congr rfl fun c _ => ?_
      rw [sum_mul, mul_sum, mul_sum, mul_sum, sum_mul]
      exact sum_congr rfl fun d _ => by ring
    simp only [e1]
    rw [sum_congr rfl fun i _ => sum_comm, sum_comm]
    refine sum_congr rfl fun p _ => ?_
    simp only [← mul_sum]
    congr 1
    rw [sum_congr rfl fun i _ => sum_comm, sum_comm]
    refine sum_congr rfl fun c _ => ?_
    rw [sum_congr rfl fun i _ => sum_comm, sum_comm]
    refine sum_congr rfl fun d _ => ?_
    rw [mul_sum]
    refine sum_congr rfl fun i _ => ?_
    rw [sum_mul, sum_mul]
  rw [key]
  exact sum_nonneg fun p hp => mul_nonneg (hl p (mem_range.1 hp)) (hH p (mem_range.1 hp) _)

/-- **C73** (constraints `φ(r)`, exact for affine `r`): if `r` is affine (its transposed Jacobian `jr` constant), the term
is the derivative of the gradient of the constraints weighted with the multipliers of the upper bounds.  `q p c` is the
derivative of `φ_p` in `r_c` as a function of the stage variables; the hypothesis is the chain rule. -/
theorem C73_convex_constraint_affine (want : Bool) (n nb ng nphi nr : Nat) (lam : Nat → ℝ) (jr hphi : Nat → Nat → ℝ)
    (hsym : ∀ p < nphi, ∀ c < nr, ∀ d < nr, hphi (nr * p + c) d = hphi (nr * p + d) c)
    (q : Nat → Nat → (Nat → ℝ) → ℝ) (w : Nat → ℝ)
    (hq : ∀ p < nphi, ∀ c < nr, HasGrad n (q p c) (fun j => ∑ d ∈ range nr, hphi (nr * p + c) d * jr j d) w) :
    ∀ i < n, HasGrad n
      (fun v => ∑ p ∈ range nphi, lam (nb + ng + nphi + (nb + ng) + p) * ∑ c ∈ range nr, jr i c * q p c v)
      (fun j => conPartH want (.bgp nb ng nphi nr lam jr hphi) i j) w := by
  intro i _
  have h := HasGrad.sum (n := n) nphi (w := w) fun p hp =>
    (HasGrad.sum nr fun c hc => (hq p hp c hc).const_mul (jr i c)).const_mul (lam (nb + ng + nphi + (nb + ng) + p))
  refine h.congr fun j _ => ?_
  simp only [conPartH, gaussNewtonTerm]
  refine sum_congr rfl fun p hp => ?_
  congr 1
  simp only [mul_sum, sum_mul]
  rw [sum_comm]
  refine sum_congr rfl fun d hd => sum_congr rfl fun c hc => ?_
  rw [hsym p (mem_range.1 hp) c (mem_range.1 hc) d (mem_range.1 hd)]
  ring

/-- **C73** (constraints `φ(r)`): multipliers of lower bounds do not enter; the block is the same for all of them. -/
theorem C73_convex_constraint_lower (b : Bool) (nb ng nphi nr : Nat) (lam lam' : Nat → K) (jr hphi : Nat → Nat → K)
    (h : ∀ p < nphi, lam (nb + ng + nphi + (nb + ng) + p) = lam' (nb + ng + nphi + (nb + ng) + p)) (prev r r' : Blk K)
    (h1 : conWrite b prev (.bgp nb ng nphi nr lam jr hphi) = some r)
    (h2 : conWrite b prev (.bgp nb ng nphi nr lam' jr hphi) = some r') : ∀ i j, j ≤ i → r i j = r' i j := by
  intro i j hij
  rw [conWrite_split _ _ _ _ h1 i j hij, conWrite_split _ _ _ _ h2 i j hij]
  congr 1
  simp only [conPartH, gaussNewtonTerm]
  exact sum_congr rfl fun p hp => by rw [h p (mem_range.1 hp)]

/-- **C73** (SQP with feasible QP): for every sequence of option calls — here also with toggling — the nominal QP gets
the sum of all requested terms, and the relaxed QP, if so configured, the dynamics and constraint terms without the
cost, independently of the earlier content of all blocks.  (The interface does not allow costs propagated by the
integrator with this solver.) -/
theorem C73_feasible_qp (m : StageMods K) (ops : List OptCall) (o : StageOpts) (useConstr : Bool)
    (ho : setAll m.dyn.isNone m.cost (defaultStage false) ops = some o) (hcons : Consistent false m)
    (b b' : FqpBlks K) (h : fqpStage useConstr o m b = some b') :
    ∃ gn a, costAlone gn m.cost = some a
      ∧ (∀ d nm mem p, m.cost = .nls d nm mem p → gn = !wantCost false (ops.map OptCall.req))
      ∧ (∀ i j, j ≤ i → b'.nominal i j = select (wantDyn false (ops.map OptCall.req)) (dynPartH m) i j + a i j
        + conPartH (wantConstr false (ops.map OptCall.req)) m.con i j)
      ∧ (∀ i j, j ≤ i → useConstr = true → b'.relaxed i j = select (wantDyn false (ops.map OptCall.req)) (dynPartH m) i j
        + conPartH (wantConstr false (ops.map OptCall.req)) m.con i j)
      ∧ (useConstr = false → b'.relaxed = b.relaxed) := by
  obtain ⟨a1, a2, a3, a4⟩ := setAll_inv _ _ _ _ _ ho
  obtain ⟨w1, w2, w3⟩ := setAll_want _ _ _ _ _ ho
  simp only [fqpStage, Option.bind_eq_some_iff, Option.map_eq_some_iff] at h
  obtain ⟨rc, h1, rk, h2, rfl⟩ := h
  have hint : o.cost.integrator = false := a2
  have hw : Writes { o.cost with add := false } m.cost := by
    cases hm : m.cost <;> simp_all [Writes, defaultStage]
  obtain ⟨a, ha1, ha2⟩ := costWrite_split _ _ _ hw _ h1
  have h2 := conWrite_split _ _ _ _ h2
  have hk : ∀ i j, j ≤ i → rk i j = select (wantDyn false (ops.map OptCall.req)) (dynPartH m) i j
      + conPartH (wantConstr false (ops.map OptCall.req)) m.con i j := by
    intro i j hij
    rw [h2 i j hij, w1]
    congr 1
    cases hd : m.dyn with
    | none => simp [dynPart, hd, select, dynPartH]
    | some dm =>
      rw [hd] at w2
      have w2 := w2 rfl
      simp only [Consistent, hd, Bool.false_eq_true, if_false] at hcons
      simp only [defaultStage] at w2
      rw [← w2]
      simp only [dynPart, hd, dynWrite, hcons, Bool.false_eq_true, if_false, dynPartH]
      cases o.dynHess <;> simp [select]
  refine ⟨_, a, ha1, fun d nm mem p hm => w3 d nm mem p hm, fun i j hij => ?_, fun i j hij hu => ?_, fun hu => ?_⟩
  · simp only [hk i j hij, ha2 i j hij]
    simp
    ring
  · simp only [hu, if_true, hk i j hij]
  · simp [hu]

/-- **C73** (Levenberg-Marquardt): the term adds `scaling * parameter` to the diagonal of the nominal block and changes
nothing else; when the caller asks for the relaxed QP (`ocp_nlp_sqp_with_feasible_qp.c:991`), the relaxed block does not
get it — it is added to the nominal block a second time. -/
theorem C73_levenberg_marquardt (fr : Bool) (lm s : K) (b : FqpBlks K) :
    (∀ i, (addLM fr lm s b).nominal i i = b.nominal i i + s * lm)
    ∧ (∀ i j, i ≠ j → (addLM fr lm s b).nominal i j = b.nominal i j)
    ∧ (addLM true lm s b).relaxed = b.relaxed
    ∧ ∀ i, (addLM true lm s (addLM false lm s b)).nominal i i = b.nominal i i + 2 * (s * lm) := by
  refine ⟨fun i => by simp [addLM], fun i j h => by simp [addLM, h], rfl, fun i => ?_⟩
  simp [addLM]
  ring

/-! ### Non-vacuity -/

/-- a stage with all contributions: external cost with Hessian 5, dynamics term 7, constraint term `11 μ` -/
def exStage : StageMods ℚ :=
  ⟨some ⟨fun _ _ => 7, false, fun _ _ => 0, 1⟩, .extNum 1 (fun _ _ => 5),
   .bgh 0 0 1 0 (fun k => if k = 1 then 1 else 0) (fun mu _ _ => 11 * mu 0) (fun _ _ _ => 0) (fun _ _ => 0)⟩

/-- the generated sequence of calls on that stage: all terms -/
example : ∃ o r, setAll exStage.dyn.isNone exStage.cost (defaultStage false)
    [.exactHess true, .exactHessDyn true, .exactHessCost true, .exactHessConstr true] = some o
    ∧ stage o exStage (fun _ _ => 1000) = some r ∧ Consistent false exStage ∧ r 0 0 = 23 := by
  refine ⟨_, _, rfl, rfl, rfl, ?_⟩
  norm_num [conHess, hMult, exStage, dynPart, dynWrite]

/-- toggling the dynamics term: it is lost -/
example : ∃ o r, setAll exStage.dyn.isNone exStage.cost (defaultStage false)
    [.exactHess true, .exactHessDyn false, .exactHessDyn true] = some o
    ∧ stage o exStage (fun _ _ => 1000) = some r ∧ r 0 0 = 16 := by
  refine ⟨_, _, rfl, rfl, ?_⟩
  norm_num [conHess, hMult, exStage, dynPart, dynWrite]

/-- the feasible-QP variant with toggling: not lost -/
example : ∃ o b, setAll exStage.dyn.isNone exStage.cost (defaultStage false)
    [.exactHess true, .exactHessDyn false, .exactHessDyn true] = some o
    ∧ fqpStage true o exStage ⟨fun _ _ => 1, fun _ _ => 2, fun _ _ => 3, fun _ _ => 4⟩ = some b
    ∧ b.nominal 0 0 = 23 ∧ b.relaxed 0 0 = 18 := by
  refine ⟨_, _, rfl, rfl, ?_, ?_⟩ <;> norm_num [conHess, hMult, exStage, dynPart, dynWrite]

/-- hypotheses of `C73_lagrangian`: quadratic cost `5/2 w²`, dynamics `7/2 w²` with `π = 1`, constraint `11/2 w²` -/
example : ∀ i < 1, HasGrad 1 (fun v => ∑ c ∈ range 1, (fun (v : Nat → ℝ) (_ _ : Nat) => 7 * v 0) v i c * (fun _ => 1) c)
    (fun j => symL (fun _ _ => (7 : ℝ)) i j) (fun _ => 3) := by
  intro i hi
  have := (HasGrad.coord (n := 1) 0 (by omega) (fun _ => (3 : ℝ))).const_mul 7
  simp only [sum_range_one, mul_one]
  refine this.congr fun j hj => ?_
  obtain rfl : j = 0 := by omega
  simp [symL]

/-- hypotheses of `C73_convex_constraint_psd` and `C73_convex_constraint_affine`: `φ(r) = r²`, `r(w) = 2 w` -/
example : (∀ p < 1, (0 : ℚ) ≤ (fun _ => (1 : ℚ)) (0 + 0 + 1 + (0 + 0) + p))
    ∧ ∀ p < 1, ∀ w : Nat → ℚ, 0 ≤ ∑ c ∈ range 1, ∑ d ∈ range 1, w c * (fun _ _ => (2 : ℚ)) (1 * p + c) d * w d := by
  refine ⟨fun _ _ => by norm_num, fun p _ w => ?_⟩
  simp only [sum_range_one]
  nlinarith [mul_self_nonneg (w 0)]

example : ∀ p < 1, ∀ c < 1, HasGrad 1 ((fun (_ _ : Nat) (v : Nat → ℝ) => 2 * (2 * v 0)) p c)
    (fun j => ∑ d ∈ range 1, (fun _ _ => (2 : ℝ)) (1 * p + c) d * (fun _ _ => (2 : ℝ)) j d) (fun _ => 3) := by
  intro p _ c _
  refine (((HasGrad.coord (n := 1) 0 (by omega) (fun _ => (3 : ℝ))).const_mul 2).const_mul 2).congr fun j hj => ?_
  obtain rfl : j = 0 := by omega
  norm_num

/-- a constraint `φ(r)` with multiplier 3 of the upper and 5 of the lower bound, `φ'' = 2`, `r' = 7`: the block gets
`3 · 2 · 49` -/
example : ∃ r, stage (defaultStage false) ⟨none, .extNum 1 (fun _ _ => 5),
      .bgp 1 1 1 1 (fun k => if k = 5 then 3 else 5) (fun _ _ => 7) (fun _ _ => 2)⟩ (fun _ _ => (1000 : ℚ)) = some r
    ∧ r 0 0 = 5 + 294 := by
  refine ⟨_, rfl, ?_⟩
  norm_num [scqpStep, List.range_succ, dynPart, defaultStage]

/-- a fixed Hessian: linear least-squares cost with cached Hessian 3 -/
example : ∃ o r, fixedPrecompute (defaultStage false)
    (⟨none, .ls ⟨1, 0, 0, 1, 0⟩ ⟨⟨fun _ _ => 0, fun _ _ => 0, fun _ _ => 0, fun _ => 0, fun _ => 0, fun _ => 0, 1, false,
      false, false⟩, ⟨fun _ _ => 3, fun _ _ => 0, fun _ => 0, fun _ => 0, fun _ _ => 0, fun _ => 0, 0⟩⟩
      ⟨fun _ => 0, fun _ => 0, fun _ _ => 0⟩, .bgp 0 0 0 0 (fun _ => 0) (fun _ _ => 0) (fun _ _ => 0)⟩ : StageMods ℚ) (fun _ _ => 8) = some (o, r) ∧ r 0 0 = 3 :=
  ⟨_, _, rfl, rfl⟩

end Acados.Hess
