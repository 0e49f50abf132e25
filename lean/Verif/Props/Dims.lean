import Verif.Model.Dims
import Mathlib.Data.List.Induction
/-! # C44: dimension bookkeeping does not depend on the order of the setters -/
namespace Acados.Dims

/-- the last value written, one call at a time -/
def lastStep (x : Fld → Nat → Nat) (op : Op) (f : Fld) (s : Nat) : Nat :=
  match op with
  | .optVar g a => if g = f then a s else x f s
  | .con t g v => if t = s ∧ g = f then v else x f s

theorem last_eq_foldl (ops : List Op) : last ops = ops.foldl lastStep (fun _ _ => 0) := by
  have : ∀ (x : Fld → Nat → Nat) f s, ops.foldl (fun y op => match op with
      | .optVar g a => if g = f then a s else y
      | .con t g v => if t = s ∧ g = f then v else y) (x f s) = ops.foldl lastStep x f s := by
    induction ops with
    | nil => intros; rfl
    | cons op ops ih =>
      intro x f s
      rw [List.foldl_cons, List.foldl_cons, ← ih]
      congr 1
  funext f s
  exact this (fun _ _ => 0) f s

/-- derived dimensions in terms of the user's numbers `v` (all but the number of inequalities) -/
structure Derived (N : Nat) (v : Fld → Nat → Nat) (d : NlpDims) : Prop where
  plain : ∀ s ≤ N, d.nx s = v .nx s ∧ d.nu s = v .nu s ∧ d.nz s = v .nz s ∧ d.ns s = v .ns s ∧ d.np s = v .np s
  /-- number of variables of a stage -/
  nv : ∀ s ≤ N, d.nv s = v .nu s + v .nx s + 2 * v .ns s
  /-- number of bounds -/
  nb : ∀ s ≤ N, d.nb s = v .nbx s + v .nbu s
  ng : ∀ s ≤ N, d.ng s = v .ng s
  niNl : ∀ s ≤ N, d.niNl s = v .nh s
  con : ∀ s ≤ N, (∀ f, f ≠ .np → (d.con s).raw f = v f s) ∧ (d.con s).nb = v .nbx s + v .nbu s
    ∧ (d.con s).nsDerived = v .nsbx s + v .nsbu s + v .nsg s + v .nsh s
  /-- dimensions of the QP: general constraints are the linear and the nonlinear ones -/
  qp : ∀ s ≤ N, d.qp s = ⟨v .nx s, v .nu s, v .nbx s, v .nbu s, v .ng s + v .nh s, v .ns s, v .nbxe s, v .nbue s,
    v .nge s + v .nhe s⟩
  /-- dimensions of the relaxed QP: one slack per general constraint, per state bound after the first stage, and per
  softened bound -/
  rqp : ∀ s ≤ N, d.rqp s = ⟨v .nx s, v .nu s, v .nbx s, v .nbu s, v .ng s + v .nh s,
    v .ng s + v .nh s + v .nsbu s + (if s = 0 then v .nsbx s else v .nbx s), v .nbxe s, 0, 0⟩
  reg : ∀ s ≤ N, d.reg s = ⟨v .nx s, v .nu s, v .nbx s, v .nbu s, v .ng s + v .nh s⟩
  cost : ∀ s ≤ N, d.cost s = ⟨v .nx s, v .nu s, v .nz s, v .ns s⟩
  /-- the dynamics know the dimensions of the next stage -/
  dyn : ∀ s < N, d.dyn s = ⟨v .nx s, v .nx (s + 1), v .nu s, v .nu (s + 1), v .nz s, v .np s⟩

theorem init_derived (N : Nat) : Derived N (fun _ _ => 0) init := by
  constructor <;> intros <;> simp [init]

theorem upTo_lt {α : Type} {n : Nat} (f : Nat → α → α) (x : Nat → α) {i : Nat} (h : i < n) : upTo n f x i = f i (x i) := if_pos h

theorem step_optVar (N : Nat) (v : Fld → Nat → Nat) (d d' : NlpDims) (h : Derived N v d) (f : Fld) (a : Nat → Nat)
    (hs : setOptVars N f a d = some d') : Derived N (lastStep v (.optVar f a)) d' := by
  cases f <;> simp only [setOptVars, Option.some.injEq, reduceCtorEq] at hs <;> subst hs
  all_goals
    constructor
    case dyn =>
      intro s hs
      have hd := h.dyn s hs
      simp only [lastStep, upTo_lt _ _ hs, hd, if_true, reduceCtorEq, if_false]
    all_goals
      intro s hs
      have hs1 : s < N + 1 := by omega
      have hp := h.plain s hs
      have hv := h.nv s hs
      have hb := h.nb s hs
      have hg := h.ng s hs
      have hi := h.niNl s hs
      have hc := h.con s hs
      have hq := h.qp s hs
      have hr := h.rqp s hs
      have he := h.reg s hs
      have ho := h.cost s hs
      simp only [lastStep, upTo_lt _ _ hs1, conSet, hp, hv, hb, hg, hi, hq, hr, he, ho, hc.2, if_true,
        reduceCtorEq, if_false, and_self]
  all_goals
    refine ⟨fun f hf => ?_, trivial⟩
    rcases hc with ⟨hc1, _⟩
    first
    | (simp only [Function.update_apply]
       split
       · next e => subst e; simp
       · next e => rw [if_neg (Ne.symm e)]; exact hc1 f hf)
    | (rw [if_neg (Ne.symm hf)]; exact hc1 f hf)

theorem step_con (N : Nat) (v : Fld → Nat → Nat) (d d' : NlpDims) (h : Derived N v d) (t : Nat) (f : Fld) (x : Nat)
    (ht : t ≤ N) (hf : f.isOptVar = false) (hs : setCon t f x d = some d') : Derived N (lastStep v (.con t f x)) d' := by
  obtain ⟨hc1, hc2, hc3⟩ := h.con t ht
  have hraw : ∀ g, g ≠ .np → Function.update (d.con t).raw f x g = if f = g then x else v g t := by
    intro g hg
    simp only [Function.update_apply]
    split
    · next e => subst e; simp
    · next e => rw [if_neg (Ne.symm e)]; exact hc1 g hg
  have hother : ∀ s, s ≠ t → ∀ g, lastStep v (.con t f x) g s = v g s := by
    intro s hs g
    simp only [lastStep]
    rw [if_neg fun e => hs e.1.symm]
  have hsame : ∀ g, lastStep v (.con t f x) g t = if f = g then x else v g t := by
    intro g
    simp [lastStep]
  have hopt : ∀ g, g.isOptVar = true → ∀ s, lastStep v (.con t f x) g s = v g s := by
    intro g hg s
    simp only [lastStep]
    rw [if_neg]
    rintro ⟨_, rfl⟩
    simp [hf] at hg
  have hp := h.plain t ht
  have hv := h.nv t ht
  have hb := h.nb t ht
  have hg := h.ng t ht
  have hi := h.niNl t ht
  have hq := h.qp t ht
  have hr := h.rqp t ht
  have he := h.reg t ht
  have ho := h.cost t ht
  generalize lastStep v (.con t f x) = w at *
  unfold setCon at hs
  rw [if_neg (by rintro rfl; simp [Fld.isOptVar] at hf)] at hs
  have hd : ∀ s < N, d.dyn s = ⟨w .nx s, w .nx (s + 1), w .nu s, w .nu (s + 1), w .nz s, w .np s⟩ := by
    intro s hs
    rw [h.dyn s hs, hopt .nx rfl, hopt .nx rfl, hopt .nu rfl, hopt .nu rfl, hopt .nz rfl, hopt .np rfl]
  have h' : Derived N v d := h
  cases f <;> simp only [Fld.isOptVar, Bool.true_eq_false] at hf
  case nbxe =>
    simp only at hs
    split at hs
    · simp at hs
    simp only [Option.some.injEq] at hs
    subst hs
    constructor
    case dyn => exact hd
    all_goals
      intro s hs
      by_cases e : s = t
      · subst e
        simp only [Function.update_self, conSet, hsame, hraw, getNgQp, getNgeQp, relaxedNs, hp, hv, hb, hg, hi, hq, hr, he, ho,
          hc1, hc2, hc3, reduceCtorEq, if_false, if_true, ne_eq, not_false_eq_true, and_self, implies_true]
        try exact ⟨hraw, trivial⟩
      · simp only [Function.update_of_ne e, hother s e, h.plain s hs, h.nv s hs, h.nb s hs, h.ng s hs, h.niNl s hs, h.qp s hs,
          h.rqp s hs, h.reg s hs, h.cost s hs, and_self]
        try exact h.con s hs
  all_goals
    simp only [Option.some.injEq] at hs
    subst hs
    constructor
    case dyn => exact hd
    all_goals
      intro s hs
      by_cases e : s = t
      · subst e
        simp only [Function.update_self, conSet, hsame, hraw, getNgQp, getNgeQp, relaxedNs, hp, hv, hb, hg, hi, hq, hr, he, ho,
          hc1, hc2, hc3, reduceCtorEq, if_false, if_true, ne_eq, not_false_eq_true, and_self, implies_true, Nat.add_comm]
        first | omega | exact ⟨hraw, trivial⟩ | skip
      · simp only [Function.update_of_ne e, hother s e, h.plain s hs, h.nv s hs, h.nb s hs, h.ng s hs, h.niNl s hs, h.qp s hs,
          h.rqp s hs, h.reg s hs, h.cost s hs, and_self]
        try exact h.con s hs

theorem last_append (ops : List Op) (op : Op) : last (ops ++ [op]) = lastStep (last ops) op := by
  rw [last_eq_foldl, last_eq_foldl, List.foldl_append]; rfl

theorem run_append (N : Nat) (ops : List Op) (op : Op) : run N (ops ++ [op]) = (run N ops).bind fun d => step N d op := by
  unfold run
  rw [List.foldlM_append]
  cases ops.foldlM (step N) init <;> simp

/-- C44: after any sequence of setter calls, in any order and with any repetitions, every derived dimension of the
problem, of the constraint, cost, dynamics and regularisation modules and of both QPs equals its formula in the last
written values (the number of inequalities is treated separately below). -/
theorem C44_derived_partial (N : Nat) (ops : List Op) (hops : ∀ op ∈ ops, op.Valid N) (d : NlpDims) (hd : run N ops = some d) :
    Derived N (last ops) d := by
  induction ops using List.reverseRecOn generalizing d with
  | nil =>
    have : init = d := by simpa [run] using hd
    subst this; exact init_derived N
  | append_singleton ops op ih =>
    rw [run_append] at hd
    obtain ⟨d0, h0, h1⟩ := Option.bind_eq_some_iff.1 hd
    have hi := ih (fun o ho => hops o (List.mem_append_left _ ho)) d0 h0
    have hop := hops op (by simp)
    rw [last_append]
    cases op with
    | optVar f a => exact step_optVar N _ d0 d hi f a h1
    | con s f v => exact step_con N _ d0 d hi s f v hop.1 hop.2 h1

/-- C44: two sequences that end with the same values give the same dimensions. -/
theorem C44_order_irrelevant_partial (N : Nat) (ops ops' : List Op) (hops : ∀ op ∈ ops, op.Valid N)
    (hops' : ∀ op ∈ ops', op.Valid N) (hl : ∀ f s, s ≤ N → last ops f s = last ops' f s) (d d' : NlpDims)
    (hd : run N ops = some d) (hd' : run N ops' = some d') :
    (∀ s ≤ N, d.nv s = d'.nv s ∧ d.nx s = d'.nx s ∧ d.nu s = d'.nu s ∧ d.nz s = d'.nz s ∧ d.ns s = d'.ns s ∧ d.np s = d'.np s
      ∧ d.nb s = d'.nb s ∧ d.ng s = d'.ng s ∧ d.niNl s = d'.niNl s ∧ d.qp s = d'.qp s ∧ d.rqp s = d'.rqp s
      ∧ d.reg s = d'.reg s ∧ d.cost s = d'.cost s) ∧ ∀ s < N, d.dyn s = d'.dyn s := by
  have h := C44_derived_partial N ops hops d hd
  have h' := C44_derived_partial N ops' hops' d' hd'
  refine ⟨fun s hs => ?_, fun s hs => ?_⟩
  · obtain ⟨p1, p2, p3, p4, p5⟩ := h.plain s hs
    obtain ⟨q1, q2, q3, q4, q5⟩ := h'.plain s hs
    simp only [p1, p2, p3, p4, p5, q1, q2, q3, q4, q5, h.nv s hs, h'.nv s hs, h.nb s hs, h'.nb s hs, h.ng s hs, h'.ng s hs,
      h.niNl s hs, h'.niNl s hs, h.qp s hs, h'.qp s hs, h.rqp s hs, h'.rqp s hs, h.reg s hs, h'.reg s hs, h.cost s hs,
      h'.cost s hs, hl _ s hs, and_self]
  · rw [h.dyn s hs, h'.dyn s hs]
    simp only [hl _ s (by omega), hl _ (s + 1) (by omega)]

/-- current number of slacks, and the one known when a constraint dimension of stage `s` was last written -/
def seenStep (s : Nat) (x : Nat × Nat) : Op → Nat × Nat
  | .optVar .ns a => (a s, x.2)
  | .con t _ _ => if t = s then (x.1, x.1) else x
  | _ => x

/-- the number of slacks known when the constraint dimensions of stage `s` were last written -/
def nsSeen (ops : List Op) (s : Nat) : Nat :=
  (ops.foldl (seenStep s) (0, 0)).2

theorem seen_fst (ops : List Op) (N : Nat) (hops : ∀ op ∈ ops, op.Valid N) (s : Nat) :
    (ops.foldl (seenStep s) (0, 0)).1 = last ops .ns s := by
  induction ops using List.reverseRecOn with
  | nil => rfl
  | append_singleton ops op ih =>
    rw [last_append, List.foldl_append]
    have ih := ih fun o ho => hops o (List.mem_append_left _ ho)
    have hop := hops op (by simp)
    simp only [List.foldl_cons, List.foldl_nil]
    cases op with
    | optVar f a =>
      cases f <;> simp only [lastStep, seenStep, reduceCtorEq, if_false, if_true] <;> exact ih
    | con t f v =>
      have e : lastStep (last ops) (.con t f v) .ns s = last ops .ns s :=
        if_neg (by rintro ⟨_, rfl⟩; simp [Op.Valid, Fld.isOptVar] at hop)
      rw [e]
      simp only [seenStep]
      split <;> exact ih

/-- The number of inequalities of a stage, exactly: bounds, linear and nonlinear constraints in their last values, and
the slacks as they were at the last write of a constraint dimension of that stage. -/
theorem C44_ni_exact (N : Nat) (ops : List Op) (hops : ∀ op ∈ ops, op.Valid N) (d : NlpDims) (hd : run N ops = some d)
    (s : Nat) (hs : s ≤ N) :
    d.ni s = last ops .nbx s + last ops .nbu s + last ops .ng s + last ops .nh s + nsSeen ops s := by
  induction ops using List.reverseRecOn generalizing d with
  | nil =>
    have : init = d := by simpa [run] using hd
    subst this; rfl
  | append_singleton ops op ih =>
    have hD := C44_derived_partial N _ hops d hd
    rw [run_append] at hd
    obtain ⟨d0, h0, h1⟩ := Option.bind_eq_some_iff.1 hd
    have hv : ∀ o ∈ ops, o.Valid N := fun o ho => hops o (List.mem_append_left _ ho)
    have hi := ih hv d0 h0
    have hop := hops op (by simp)
    have hse := seen_fst ops N hv s
    unfold nsSeen at hi ⊢
    rw [List.foldl_append]
    generalize ops.foldl (seenStep s) (0, 0) = q at hi hse ⊢
    simp only [List.foldl_cons, List.foldl_nil]
    cases op with
    | optVar f a =>
      rw [last_append]
      cases f <;> simp only [step, setOptVars, Option.some.injEq, reduceCtorEq] at h1 <;> subst h1 <;>
        simp only [lastStep, seenStep, reduceCtorEq, if_false] <;> exact hi
    | con t f v =>
      by_cases e : t = s
      · subst e
        have hni : d.ni t = getNi (d.con t) := by
          simp only [step, setCon] at h1
          cases f <;> simp only [reduceCtorEq, if_false, if_true, Option.some.injEq] at h1 <;>
            first
            | (subst h1; simp)
            | (split at h1 <;> simp only [reduceCtorEq, Option.some.injEq] at h1; subst h1; simp)
        obtain ⟨hc, _⟩ := hD.con t hs
        have hns : last (ops ++ [Op.con t f v]) .ns t = last ops .ns t := by
          rw [last_append]
          simp only [lastStep]
          rw [if_neg (by rintro ⟨_, rfl⟩; simp [Op.Valid, Fld.isOptVar] at hop)]
        simp only [seenStep, if_true, hse]
        rw [hni, getNi, hc _ (by simp), hc _ (by simp), hc _ (by simp), hc _ (by simp), hc _ (by simp), hns]
      · have hni : d.ni s = d0.ni s := by
          simp only [step, setCon] at h1
          cases f <;> simp only [reduceCtorEq, if_false, if_true, Option.some.injEq] at h1 <;>
            first
            | (subst h1; simp [Function.update_of_ne (Ne.symm e)])
            | (split at h1 <;> simp only [reduceCtorEq, Option.some.injEq] at h1; subst h1; simp [Function.update_of_ne (Ne.symm e)])
        rw [hni, last_append]
        simp only [lastStep, seenStep, e, false_and, if_false]
        exact hi

/-- C44, number of inequalities: right if a constraint dimension of the stage is written after the last write of the
number of slacks.  Without that condition it is false, see `C44_ni_stale`. -/
theorem C44_ni_partial (N : Nat) (pre post : List Op) (s : Nat) (hs : s ≤ N) (f : Fld) (v : Nat)
    (hops : ∀ op ∈ pre ++ Op.con s f v :: post, op.Valid N) (hpost : ∀ a, Op.optVar .ns a ∉ post) (d : NlpDims)
    (hd : run N (pre ++ Op.con s f v :: post) = some d) :
    let w := last (pre ++ Op.con s f v :: post)
    d.ni s = w .nbx s + w .nbu s + w .ng s + w .nh s + w .ns s := by
  intro w
  rw [C44_ni_exact N _ hops d hd s hs]
  suffices nsSeen (pre ++ Op.con s f v :: post) s = w .ns s by rw [this]
  have h1 := seen_fst _ N hops s
  unfold nsSeen
  refine Eq.trans ?_ h1
  rw [List.foldl_append, List.foldl_cons]
  simp only [seenStep, if_true]
  generalize (pre.foldl _ ((0, 0) : Nat × Nat)).1 = y
  clear hops hd h1 w d
  suffices ∀ x : Nat × Nat, x.1 = x.2 → (post.foldl (seenStep s) x).2 = (post.foldl (seenStep s) x).1 from this (y, y) rfl
  induction post with
  | nil => intro x hx; exact hx.symm
  | cons op post ih =>
    intro x hx
    rw [List.foldl_cons]
    refine ih (fun a h => hpost a (List.mem_cons_of_mem _ h)) _ ?_
    cases op with
    | optVar g a =>
      cases g
      case ns => exact absurd List.mem_cons_self (hpost a)
      all_goals exact hx
    | con t g v =>
      simp only [seenStep]
      split
      · rfl
      · exact hx

/-- Writing the number of slacks after the constraint dimensions leaves the number of inequalities without them: two
state bounds, then one slack, gives 2 inequalities in the problem although the QP has 3; the other order gives 3. -/
theorem C44_ni_stale :
    ∃ d d' : NlpDims, run 0 [.con 0 .nbx 2, .con 0 .nsbx 1, .optVar .ns fun _ => 1] = some d
      ∧ run 0 [.optVar .ns fun _ => 1, .con 0 .nbx 2, .con 0 .nsbx 1] = some d'
      ∧ precomputeOk (d.con 0) = true ∧ d.ni 0 = 2 ∧ d'.ni 0 = 3 := by
  exact ⟨_, _, rfl, rfl, by decide, by decide, by decide⟩

/-- The setters end the process exactly when state equalities are declared after the first stage. -/
theorem C44_exit_iff (N : Nat) (ops : List Op) (hops : ∀ op ∈ ops, op.Valid N) :
    run N ops = none ↔ ∃ s v, Op.con s .nbxe v ∈ ops ∧ s ≠ 0 ∧ v ≠ 0 := by
  have : ∀ d op, op.Valid N → (step N d op = none ↔ ∃ s v, op = .con s .nbxe v ∧ s ≠ 0 ∧ v ≠ 0) := by
    intro d op hop
    cases op with
    | optVar f a =>
      simp only [step, reduceCtorEq, false_and, exists_false, iff_false]
      cases f <;> simp [setOptVars, Op.Valid, Fld.isOptVar] at hop ⊢
    | con s f v =>
      simp only [step, setCon]
      cases f <;> simp [Op.Valid, Fld.isOptVar] at hop ⊢
  unfold run
  generalize init = d
  induction ops generalizing d with
  | nil => simp
  | cons op ops ih =>
    rw [List.foldlM_cons]
    have hop := this d op (hops op List.mem_cons_self)
    cases h : step N d op with
    | none =>
      obtain ⟨s, v, rfl, h1⟩ := hop.1 h
      simp only [List.mem_cons]
      exact ⟨fun _ => ⟨s, v, .inl rfl, h1⟩, fun _ => rfl⟩
    | some d' =>
      have := ih (fun o ho => hops o (List.mem_cons_of_mem _ ho)) d'
      refine Iff.trans this ⟨fun ⟨s, v, h1, h2⟩ => ⟨s, v, List.mem_cons_of_mem _ h1, h2⟩, fun ⟨s, v, h1, h2⟩ => ?_⟩
      rcases List.mem_cons.1 h1 with e | h1
      · rw [hop.2 ⟨s, v, e.symm, h2⟩] at h
        simp at h
      · exact ⟨s, v, h1, h2⟩

/-- The consistency test accepts exactly when the softened constraints add up to the number of slacks. -/
theorem C44_slack_test (N : Nat) (ops : List Op) (hops : ∀ op ∈ ops, op.Valid N) (d : NlpDims) (hd : run N ops = some d)
    (s : Nat) (hs : s ≤ N) :
    precomputeOk (d.con s) = true
      ↔ last ops .nsbx s + last ops .nsbu s + last ops .nsg s + last ops .nsh s = last ops .ns s := by
  obtain ⟨h1, _, h3⟩ := (C44_derived_partial N ops hops d hd).con s hs
  simp only [precomputeOk, decide_eq_true_eq, h3, h1 .ns (by simp)]

/-! ### Non-vacuity: two stages, repeated and reordered writes -/
example : let ops : List Op := [.con 1 .nbx 3, .optVar .ns fun s => s, .optVar .nx fun s => 4 + s, .con 1 .nh 2,
      .optVar .nu fun _ => 1, .con 1 .nbx 2, .con 1 .nsh 1, .con 0 .nbxe 4, .con 0 .nbx 4]
    (∀ op ∈ ops, op.Valid 1) ∧ ∃ d, run 1 ops = some d ∧ d.nv 1 = 8 ∧ d.ni 1 = 5 ∧ (d.qp 1).ng = 2 ∧ (d.rqp 1).ns = 4
      ∧ (d.dyn 0).nx1 = 5 ∧ d.nb 0 = 4 := by
  refine ⟨?_, _, rfl, by decide, by decide, by decide, by decide, by decide, by decide⟩
  simp [Op.Valid, Fld.isOptVar]

end Acados.Dims
