import Verif.Lemmas.Dunes2
import Mathlib.Algebra.Order.Ring.Rat
/-!
# C83: the qpDUNES interface solves the QP it is given
-/
namespace Acados.Dunes
open Finset
open Acados.QpScal
variable {K : Type*} [Field K] [LinearOrder K]

/-! ### Which dimensions are accepted -/

/-- The solver is created exactly for QPs with the same number of states in all stages, the same number of inputs in all but
the last stage, and none in the last. -/
theorem C83_dims (N : Nat) (nx nu : Nat → Nat) :
    dimsOk N nx nu = true ↔ (∀ k ≤ N, nx k = nx 0) ∧ (∀ k < N, nu k = nu 0) ∧ nu N = 0 := by
  unfold dimsOk
  simp only [Bool.and_eq_true, List.all_eq_true, List.mem_range'_1, decide_eq_true_eq]
  constructor
  · rintro ⟨⟨h, h1⟩, h2⟩
    refine ⟨fun k hk => ?_, fun k hk => ?_, h2⟩
    · rcases Nat.eq_zero_or_pos k with e | e
      · rw [e]
      · by_cases e' : k = N
        · rw [e']; exact h1
        · exact (h k (by omega)).1
    · rcases Nat.eq_zero_or_pos k with e | e
      · rw [e]
      · exact (h k (by omega)).2
  · rintro ⟨h1, h2, h3⟩
    exact ⟨⟨fun k hk => ⟨h1 k (by omega), h2 k (by omega)⟩, h1 N (le_refl _)⟩, h3⟩

/-! ### The data -/

/-- A call after the first that does not fail hands over exactly the QP of the caller, whatever the memory and the workspace
held before, and leaves that QP as it is. -/
theorem C83_data (o : DOpts K) (hl : o.linear = false) (eps : K) (invalid : Int) (rv : Nat → Int) (m : DMem K) (w : Work K) (q : Qp K)
    (hq : QpOk q) (hf : m.firstRun = false) (a1 : DMem K × Work K × Qp K) (h : updateMemory o eps invalid rv (m, w, q) = .ok a1) :
    Holds o.inf q a1.1.st ∧ SameQp q a1.2.2 ∧ a1.1.firstRun = false := by
  unfold updateMemory at h
  simp only [hf, Bool.false_eq_true, if_false] at h
  cases e : updateAll o rv (m, w, q) with
  | ok a =>
    rw [e] at h; simp only [Upd.ok.injEq] at h; subst h
    obtain ⟨h1, h2, -⟩ := updateAll_holds o hl rv m w q hq a e
    exact ⟨h1, h2, rfl⟩
  | code c a => rw [e] at h; cases h
  | ub => rw [e] at h; cases h

/-- A first call with clipping that does not fail hands over exactly the QP of the caller; a QP that clipping cannot solve
(rows, a full Hessian) is refused. -/
theorem C83_clip (o : DOpts K) (hc : o.clip = true) (eps : K) (invalid : Int) (hi : invalid ≠ 0) (rv : Nat → Int) (m : DMem K)
    (w : Work K) (q : Qp K) (hq : QpOk q) (hf : m.firstRun = true) (r : Upd (DMem K × Work K × Qp K))
    (h : updateMemory o eps invalid rv (m, w, q) = r) :
    (∀ a1, r = .ok a1 → Holds o.inf q a1.1.st ∧ SameQp q a1.2.2 ∧ a1.1.firstRun = false) ∧
    ((∃ k ≤ q.N, (q.st k).ng ≠ 0) ∨ (∃ k < q.N, ∃ i < q.nu k + q.nx k, ∃ j < q.nu k + q.nx k, i ≠ j ∧ (q.st k).H i j ≠ 0) →
      r = .code invalid (m, w, q)) := by
  subst h
  constructor
  · intro a1 h
    unfold updateMemory at h
    simp only [hf, if_true] at h
    cases e : setupAll o eps invalid rv (m, w, q) with
    | ok a =>
      rw [e] at h; simp only [Upd.ok.injEq] at h; subst h
      unfold setupAll at e
      simp only [hc, Bool.true_and, if_true] at e
      by_cases hn : needsQpoases q = true
      · rw [if_pos hn] at e; cases e
      · rw [if_neg hn] at e
        obtain ⟨h1, h2, -⟩ := setupLoop_holds o rv m w q hq (fun _ => needs_false q (by simpa using hn)) a e
        exact ⟨h1, h2, rfl⟩
    | code c a => rw [e] at h; cases h
    | ub => rw [e] at h; cases h
  · intro hx
    have hn : needsQpoases q = true := by
      by_contra hn
      have hn : needsQpoases q = false := by simpa using hn
      unfold needsQpoases at hn
      simp only [Bool.or_eq_false_iff, List.any_eq_false, List.mem_range, decide_eq_true_eq, Decidable.not_not,
        Bool.and_eq_true, not_and, ne_eq, Bool.not_eq_true] at hn
      obtain ⟨⟨⟨n1, n2⟩, n3⟩, n4⟩ := hn
      rcases hx with ⟨k, hk, hng⟩ | ⟨k, hk, i, hi, j, hj, hij, hH⟩
      · exact hng (n1 k (by omega))
      · rw [hq.nx k (by omega), hq.nu k hk] at hi hj
        have n2' := n2 k hk
        have n3' := n3 k (by omega)
        have n4' := n4 k hk
        rw [if_neg (by omega)] at n3'
        have hs := (hq.st k (by omega)).sym i (by rw [hq.nx k (by omega), hq.nu k hk]; exact hi) j
          (by rw [hq.nx k (by omega), hq.nu k hk]; exact hj)
        by_cases ei : i < q.nu 0 <;> by_cases ej : j < q.nu 0
        · exact n4' i ei j ej hij |> hH
        · apply hH
          rw [hs]
          have := n2' (j - q.nu 0) (by omega) i ei
          rwa [show j - q.nu 0 + q.nu 0 = j by omega] at this
        · apply hH
          have := n2' (i - q.nu 0) (by omega) j ej
          rwa [show i - q.nu 0 + q.nu 0 = i by omega] at this
        · apply hH
          have := n3' (i - q.nu 0) (by omega) (j - q.nu 0) (by omega) (by omega)
          rwa [show i - q.nu 0 + q.nu 0 = i by omega, show j - q.nu 0 + q.nu 0 = j by omega] at this
    unfold updateMemory
    simp only [hf, if_true]
    unfold setupAll
    simp only [hc, hn, Bool.and_self, if_true]

/-- In the mode for linear MPC a later call hands over only the bounds of the first stage; that is enough if the QP differs from
the one stored in these only. -/
theorem C83_linear (o : DOpts K) (hl : o.linear = true) (eps : K) (invalid : Int) (rv : Nat → Int) (m : DMem K) (w : Work K) (q0 q : Qp K)
    (hq : QpOk q) (hN : 0 < q.N) (hf : m.firstRun = false) (h0 : Holds o.inf q0 m.st) (hdim : q.N = q0.N ∧ q.nx = q0.nx ∧ q.nu = q0.nu)
    (hst : ∀ k ≠ 0, q.st k = q0.st k) (hs0 : { q.st 0 with d := (q0.st 0).d } = q0.st 0)
    (hrow : ∀ i < (q.st 0).ng, (q.st 0).d ((q.st 0).nb + i) = (q0.st 0).d ((q.st 0).nb + i) ∧
      (q.st 0).d (2 * (q.st 0).nb + (q.st 0).ng + i) = (q0.st 0).d (2 * (q.st 0).nb + (q.st 0).ng + i))
    (a1 : DMem K × Work K × Qp K) (h : updateMemory o eps invalid rv (m, w, q) = .ok a1) :
    Holds o.inf q a1.1.st ∧ a1.2.2 = q := by
  unfold updateMemory updateAll at h
  simp only [hf, Bool.false_eq_true, if_false, hl, Bool.not_true] at h
  by_cases hr : rv 0 = 0
  · rw [if_pos hr] at h
    simp only [Upd.ok.injEq] at h
    subst h
    refine ⟨fun k hk => ?_, rfl⟩
    have hk0 := h0 k (by rw [← hdim.1]; exact hk)
    rw [← hdim.2.1, ← hdim.2.2, ← hdim.1] at hk0
    by_cases e : k = 0
    · subst e
      simp only [Function.update_self]
      have hok := hq.st 0 (by omega)
      obtain ⟨b1, b2⟩ := formBounds_spec o.inf (q.nx 0) (q.nu 0) (q.st 0).nb (q.st 0).ng (q.st 0).idxb (q.st 0).d w.zLow w.zUpp hok.idxb hok.inj
      rw [← hs0] at hk0
      obtain ⟨k1, k2, k3, k4, -, -, k7, k8, k9⟩ := hk0
      exact ⟨k1, k2, k3, k4, bndj hok.idxb b1, b2, k7, fun i hi => by rw [(hrow i hi).1]; exact k8 i hi,
        fun i hi => by rw [(hrow i hi).2]; exact k9 i hi⟩
    · simp only [Function.update_of_ne e]
      rw [hst k e]
      exact hk0
  · rw [if_neg hr] at h; cases h

/-- the QP with `eps` added to the two entries (0,1) and (1,0) of the terminal Hessian -/
def Perturbed (eps : K) (q q' : Qp K) : Prop :=
  q'.N = q.N ∧ q'.nx = q.nx ∧ q'.nu = q.nu ∧ (∀ k, { q'.st k with H := (q.st k).H } = q.st k) ∧
  (∀ k ≠ q.N, (q'.st k).H = (q.st k).H) ∧
  ∀ i j, (q'.st q.N).H i j = (q.st q.N).H i j + if (i = 0 ∧ j = 1) ∨ (i = 1 ∧ j = 0) then eps else 0

/-- A first call with the default stage solver that does not fail hands over the perturbed QP and leaves the perturbation in
the QP of the caller.  With fewer than two states it is undefined. -/
theorem C83_first (o : DOpts K) (hc : o.clip = false) (eps : K) (invalid : Int) (rv : Nat → Int) (m : DMem K) (w : Work K) (q : Qp K)
    (hq : QpOk q) (hf : m.firstRun = true) :
    (q.nx q.N < 2 → updateMemory o eps invalid rv (m, w, q) = .ub) ∧
    ∀ a1, updateMemory o eps invalid rv (m, w, q) = .ok a1 →
      ∃ q', Perturbed eps q q' ∧ Holds o.inf q' a1.1.st ∧ SameQp q' a1.2.2 ∧ a1.1.firstRun = false := by
  constructor
  · intro hn
    unfold updateMemory
    simp only [hf, if_true]
    unfold setupAll perturb
    simp only [hc, Bool.false_and, Bool.false_eq_true, if_false, if_pos hn]
  · intro a1 h
    unfold updateMemory at h
    simp only [hf, if_true] at h
    cases e : setupAll o eps invalid rv (m, w, q) with
    | ok a =>
      rw [e] at h; simp only [Upd.ok.injEq] at h; subst h
      unfold setupAll at e
      simp only [hc, Bool.false_and, Bool.false_eq_true, if_false] at e
      cases ep : perturb eps q with
      | none => rw [ep] at e; cases e
      | some q' =>
        rw [ep] at e
        simp only at e
        unfold perturb at ep
        split_ifs at ep with hn
        simp only [Option.some.injEq] at ep
        have hP : Perturbed eps q q' := by
          subst ep
          refine ⟨rfl, rfl, rfl, fun k => ?_, fun k hk => ?_, fun i j => ?_⟩
          · by_cases ek : k = q.N
            · subst ek; simp only [Function.update_self]
            · simp only [Function.update_of_ne ek]
          · simp only [Function.update_of_ne hk]
          · simp only [Function.update_self, addEps]
            split_ifs
            · rfl
            · rw [add_zero]
        have hq' : QpOk q' := by
          obtain ⟨p1, p2, p3, p4, p5, p6⟩ := hP
          refine ⟨fun k hk => ?_, fun k hk => ?_, ?_, fun k hk => ?_⟩
          · rw [p2]; exact hq.nx k (by omega)
          · rw [p3]; exact hq.nu k (by omega)
          · rw [p1, p3]; exact hq.nuN
          · rw [p2, p3]
            have h0 := hq.st k (by omega)
            have e1 : (q'.st k).nb = (q.st k).nb := by have := congrArg (fun s : Stage K => s.nb) (p4 k); exact this
            have e2 : (q'.st k).idxb = (q.st k).idxb := by have := congrArg (fun s : Stage K => s.idxb) (p4 k); exact this
            refine ⟨fun i hi j hj => ?_, by rw [e1, e2]; exact h0.idxb, by rw [e1, e2]; exact h0.inj⟩
            by_cases ek : k = q.N
            · subst ek
              rw [p6, p6, h0.sym i hi j hj]
              congr 1
              by_cases c : (i = 0 ∧ j = 1) ∨ (i = 1 ∧ j = 0)
              · rw [if_pos c, if_pos (by tauto)]
              · rw [if_neg c, if_neg (by tauto)]
            · rw [p5 k ek]; exact h0.sym i hi j hj
        obtain ⟨h1, h2, -⟩ := setupLoop_holds o rv m w q' hq' (fun h => by rw [hc] at h; cases h) a e
        exact ⟨q', hP, h1, h2, rfl⟩
    | code c a => rw [e] at h; cases h
    | ub => rw [e] at h; cases h

/-! ### The solution -/

/-- If qpDUNES returns a minimiser of a problem that holds the QP, the states and inputs handed back are a minimiser of the QP. -/
theorem C83_primal [IsStrictOrderedRing K] (inf : K) (q : Qp K) (hs : Supported inf q) (m : DMem K) (hh : Holds inf q m.st)
    (z lamD y : Nat → Nat → K) (old w : Sol K) (hz : DIsMin inf (problem q m) z) (h : fillOut q z lamD y old = some w) : IsMin q w.ux := by
  have hr : Rel q w.ux z := by
    unfold fillOut at h
    split_ifs at h
    simp only [Option.some.injEq] at h
    subst h
    intro k hk j hj
    simp only
    rw [if_pos hk, hs.ok.nx k hk, fillUx_spec _ _ _ _ j hj]
  refine ⟨(feasible_iff hs hh hr).1 hz.1, fun ux' hf => ?_⟩
  have hr' : Rel q ux' (fun k j => ux' k (upos (q.nx 0) (q.nu k) j)) := fun _ _ _ _ => rfl
  have := hz.2 _ ((feasible_iff hs hh hr').2 hf)
  rw [show problem q m = prob q m.st from rfl, value_eq hs hh hr, value_eq hs hh hr'] at this
  exact this

/-- The problem handed over is feasible exactly if the QP is, and has a minimiser exactly if the QP has one. -/
theorem C83_solvable [IsStrictOrderedRing K] (inf : K) (q : Qp K) (hs : Supported inf q) (m : DMem K) (hh : Holds inf q m.st) :
    ((∃ z, DFeasible inf (problem q m) z) ↔ ∃ ux, Feasible q ux) ∧ ((∃ z, DIsMin inf (problem q m) z) ↔ ∃ ux, IsMin q ux) := by
  have hr : ∀ ux : Nat → Nat → K, Rel q ux (fun k j => ux k (upos (q.nx 0) (q.nu k) j)) := fun _ _ _ _ _ => rfl
  have hr' : ∀ z : Nat → Nat → K, Rel q (fun k => fillUx (q.nx 0) (q.nu k) (z k) (fun _ => 0)) z := fun z k _ j hj => by
    simp only; rw [fillUx_spec _ _ _ _ j hj]
  refine ⟨⟨fun ⟨z, h⟩ => ⟨_, (feasible_iff hs hh (hr' z)).1 h⟩, fun ⟨ux, h⟩ => ⟨_, (feasible_iff hs hh (hr ux)).2 h⟩⟩,
    ⟨fun ⟨z, h1, h2⟩ => ⟨_, (feasible_iff hs hh (hr' z)).1 h1, fun ux' hf => ?_⟩,
     fun ⟨ux, h1, h2⟩ => ⟨_, (feasible_iff hs hh (hr ux)).2 h1, fun z' hf => ?_⟩⟩⟩
  · have := h2 _ ((feasible_iff hs hh (hr ux')).2 hf)
    rw [show problem q m = prob q m.st from rfl, value_eq hs hh (hr' z), value_eq hs hh (hr ux')] at this
    exact this
  · have := h2 _ ((feasible_iff hs hh (hr' z')).1 hf)
    rw [show problem q m = prob q m.st from rfl, value_eq hs hh (hr ux), value_eq hs hh (hr' z')]
    exact this

/-- If in addition every stage has no bounds, or bounds on all variables in order, or no inputs, a point and multipliers that satisfy the
optimality conditions of the problem handed over are handed back as a point and multipliers that satisfy those of the QP.
Missing: stages with inputs and bounds on some variables, see `C83_lam_false` and `C83_lam_ub`. -/
theorem C83_kkt_partial [IsStrictOrderedRing K] (inf : K) (q : Qp K) (hs : Supported inf q)
    (hp : ∀ k ≤ q.N, Plain (q.nx 0) (q.nu k) (q.st k)) (m : DMem K) (hh : Holds inf q m.st)
    (z lamD y : Nat → Nat → K) (h : DKkt inf (problem q m) z lamD y) (old : Sol K) :
    ∃ w, fillOut q z lamD y old = some w ∧ Kkt q w := by
  obtain ⟨w, h1, h2, -⟩ := kkt_of hs hh hp h old
  exact ⟨w, h1, h2⟩

/-- The whole call, after the first one: if it returns and qpDUNES found a minimiser, the caller has a minimiser of its QP and
the return value is the recorded status; if it fails before, the QP solution of the caller is not touched. -/
theorem C83_call [IsStrictOrderedRing K] (o : DOpts K) (hl : o.linear = false) (eps : K) (invalid : Int) (rv : Nat → Int)
    (raw : Code → Int) (solve : DQp K → Answer K) (m : DMem K) (hf : m.firstRun = false) (w : Work K) (q : Qp K)
    (hs : Supported o.inf q) (hmin : ∀ p, (solve p).code = .optimal → DIsMin o.inf p (solve p).z)
    (old out : Sol K) (v : Int) (a1 : DMem K × Work K × Qp K)
    (h : call o eps invalid rv raw solve (m, w, q) old = .ret v a1 out) :
    (∃ k ≤ q.N, rv k ≠ 0 ∧ v = rv k ∧ out = old) ∨
    (v = a1.1.status ∧ ((solve (problem q a1.1)).code = .optimal → v = 0 ∧ IsMin q out.ux)) := by
  unfold call at h
  have hns : ¬ ((List.range (q.N + 1)).any (fun k => decide (0 < (q.st k).ns)) = true) := by
    simp only [List.any_eq_true, List.mem_range, decide_eq_true_eq, not_exists, not_and]
    intro k hk; rw [hs.ns k (by omega)]; omega
  rw [if_neg hns] at h
  cases e : updateMemory o eps invalid rv (m, w, q) with
  | ub => rw [e] at h; cases h
  | code c a =>
    rw [e] at h
    simp only [Call.ret.injEq] at h
    obtain ⟨rfl, rfl, rfl⟩ := h
    left
    unfold updateMemory at e
    simp only [hf, Bool.false_eq_true, if_false] at e
    cases e2 : updateAll o rv (m, w, q) with
    | ub => rw [e2] at e; cases e
    | ok a => rw [e2] at e; cases e
    | code c' a' =>
      rw [e2] at e
      simp only [Upd.code.injEq] at e
      obtain ⟨rfl, rfl⟩ := e
      unfold updateAll at e2
      simp only [hl, Bool.not_false, if_true] at e2
      have key : ∀ (body : Nat → DMem K × Work K × Qp K → DMem K × Work K × Qp K) (ks : List Nat) (a0 : DMem K × Work K × Qp K),
          intervals rv body ks a0 = .code c' a' → ∃ k ∈ ks, rv k ≠ 0 ∧ c' = rv k := by
        intro body ks
        induction ks using List.reverseRecOn with
        | nil => intro a0 h; cases h
        | append_singleton ks k ih =>
          intro a0 h
          unfold intervals at h
          rw [List.foldl_append] at h
          simp only [List.foldl_cons, List.foldl_nil] at h
          have ih' := ih a0
          unfold intervals at ih'
          generalize List.foldl _ (Upd.ok a0) ks = r at h ih'
          cases r with
          | ok a =>
            simp only at h
            by_cases hr : rv k = 0
            · rw [if_pos hr] at h; cases h
            · rw [if_neg hr] at h
              simp only [Upd.code.injEq] at h
              exact ⟨k, by simp, hr, h.1.symm⟩
          | ub => simp only at h; cases h
          | code c2 a2 =>
            simp only at h
            obtain ⟨k', hk', h'⟩ := ih' h
            exact ⟨k', by simp [hk'], h'⟩
      obtain ⟨k, hk, h1, h2⟩ := key _ _ _ e2
      exact ⟨k, by have := List.mem_range.1 hk; omega, h1, h2, rfl⟩
  | ok a =>
    rw [e] at h
    simp only at h
    right
    cases e3 : fillOut a.2.2 (solve (problem a.2.2 a.1)).z (solve (problem a.2.2 a.1)).lamD (solve (problem a.2.2 a.1)).y old with
    | none => rw [e3] at h; cases h
    | some w' =>
      rw [e3] at h
      simp only [Call.ret.injEq] at h
      obtain ⟨rfl, rfl, rfl⟩ := h
      obtain ⟨h1, h2, -⟩ := C83_data o hl eps invalid rv m w q hs.ok hf a e
      have hst : ∀ k, (a.2.2.st k).nb = (q.st k).nb ∧ (a.2.2.st k).ng = (q.st k).ng ∧ (a.2.2.st k).idxb = (q.st k).idxb := fun k =>
        ⟨by have := congrArg (fun s : Stage K => s.nb) (h2.rest k); exact this, by have := congrArg (fun s : Stage K => s.ng) (h2.rest k); exact this,
          by have := congrArg (fun s : Stage K => s.idxb) (h2.rest k); exact this⟩
      have hp : problem a.2.2 a.1 = problem q a.1 := by
        unfold problem
        rw [h2.N, h2.nx, h2.nu]
        congr 1
        funext k; exact (hst k).2.1
      have hfo : ∀ z lamD y, fillOut a.2.2 z lamD y old = fillOut q z lamD y old := by
        intro z lamD y
        unfold fillOut
        rw [h2.N, h2.nx, h2.nu]
        simp only [(hst _).1, (hst _).2.1, (hst _).2.2]
      have hpp : problem q { a.1 with status := statusOf raw (solve (problem a.2.2 a.1)).code } = problem q a.1 := rfl
      refine ⟨rfl, fun ho => ?_⟩
      rw [hpp] at ho
      rw [hp] at e3
      rw [hfo] at e3
      exact ⟨by rw [hp, ho]; rfl, C83_primal o.inf q hs a.1 h1 _ _ _ old _ (hmin _ ho) e3⟩

/-! ### What is not true -/

/-- After a first call with the default stage solver qpDUNES does not hold the QP of the caller, and that QP has changed. -/
theorem C83_first_false [IsStrictOrderedRing K] (o : DOpts K) (hc : o.clip = false) (eps : K) (he : eps ≠ 0) (invalid : Int) (rv : Nat → Int)
    (m : DMem K) (w : Work K) (q : Qp K) (hq : QpOk q) (hf : m.firstRun = true) (a1 : DMem K × Work K × Qp K)
    (h : updateMemory o eps invalid rv (m, w, q) = .ok a1) : ¬ Holds o.inf q a1.1.st ∧ ¬ SameQp q a1.2.2 := by
  have hx : ¬ q.nx q.N < 2 := fun hn => by rw [(C83_first o hc eps invalid rv m w q hq hf).1 hn] at h; cases h
  have hx0 : ¬ q.nx 0 < 2 := by rw [← hq.nx q.N (le_refl _)]; exact hx
  obtain ⟨q', ⟨p1, p2, p3, -, -, p6⟩, h1, h2, -⟩ := (C83_first o hc eps invalid rv m w q hq hf).2 a1 h
  have e := p6 0 1
  rw [if_pos (by simp)] at e
  constructor
  · intro hh
    have a := (hh q.N (le_refl _)).H 0 (by omega) 1 (by omega)
    have b := (h1 q.N (by omega)).H 0 (by rw [p2]; omega) 1 (by rw [p2]; omega)
    rw [p2, p3] at b
    unfold upos at a b
    simp only [if_pos (show (0 : Nat) < q.nx 0 by omega), if_pos (show (1 : Nat) < q.nx 0 by omega), hq.nuN, Nat.zero_add] at a b
    rw [b, e] at a
    exact he (by simpa using a)
  · intro hS
    have a := hS.H q.N (le_refl _) 0 (by omega) 1 (by omega)
    have b := h2.H q.N (by omega) 0 (by rw [p2, p3]; omega) 1 (by rw [p2, p3]; omega)
    rw [b, e] at a
    exact he (by simpa using a)

/-- The multipliers of a stage are written behind the end of their vector exactly if there are bounds, and fewer bounds and rows
than inputs and bounded positions below `nx`. -/
theorem C83_lam_ub (nx nu nb ng nv : Nat) (idxb : Nat → Nat) (y old : Nat → K) :
    fillLam nx nu nb ng nv idxb y old = none ↔ 0 < nb ∧ 0 < nx ∧ nb + ng < nu + min nb nx := by
  unfold fillLam
  simp only
  generalize (fun i => if i < 2 * nv + 2 * ng then (if 0 ≤ y i then y i else 0) else y i) = yc
  constructor
  · intro h
    by_contra hn
    rw [if_pos (List.all_eq_true.2 fun a ha => ?_)] at h
    · cases h
    · simp only [decide_eq_true_eq]
      unfold lamWrites at ha
      rcases List.mem_append.1 ha with ha | ha
      · obtain ⟨i, hi, ha⟩ := List.mem_flatMap.1 ha
        have hi := List.mem_range.1 hi
        by_cases e : i < nx
        · rw [if_pos e] at ha
          simp only [List.mem_cons, List.not_mem_nil, or_false] at ha
          have hle : nu + i + 1 ≤ nb + ng := by
            rcases Nat.le_total nb nx with c | c
            · rw [Nat.min_eq_left c] at hn; omega
            · rw [Nat.min_eq_right c] at hn; omega
          rcases ha with rfl | rfl <;> simp only <;> omega
        · rw [if_neg e] at ha
          simp only [List.mem_cons, List.not_mem_nil, or_false] at ha
          rcases ha with rfl | rfl <;> simp only <;> omega
      · obtain ⟨i, hi, ha⟩ := List.mem_flatMap.1 ha
        have hi := List.mem_range.1 hi
        simp only [List.mem_cons, List.not_mem_nil, or_false] at ha
        rcases ha with rfl | rfl <;> simp only <;> omega
  · rintro ⟨h1, h2, h3⟩
    rw [if_neg fun hall => ?_]
    have := List.all_eq_true.1 hall (nb + ng + nu + (min nb nx - 1), yc (2 * idxb (min nb nx - 1) + 1)) (by
      unfold lamWrites
      refine List.mem_append_left _ (List.mem_flatMap.2 ⟨min nb nx - 1, List.mem_range.2 (by omega), ?_⟩)
      rw [if_pos (by omega)]; simp)
    simp only [decide_eq_true_eq] at this
    omega

/-- The return value is zero exactly for an optimal solution, if the code for a suboptimal one is not zero. -/
theorem C83_status (raw : Code → Int) (hr : raw .suboptimal ≠ 0) (c : Code) : statusOf raw c = 0 ↔ c = .okay ∨ c = .optimal := by
  cases c <;> simp [statusOf, hr]

section examples

/-- one interval and a last one, one state and one input, `x⁺ = x + u`, objective `(u² + x² + x⁺²)/2` -/
def qEx (nb ng : Nat) (d mask : Nat → ℚ) : Qp ℚ :=
  { N := 1, nx := fun _ => 1, nu := fun k => if k = 0 then 1 else 0
    st := fun k => if k = 0 then
        { nux := 2, nb := nb, ng := ng, ns := 0, H := fun i j => if i = j then 1 else 0, g := fun _ => 0, Z := fun _ => 0,
          BAbt := fun _ _ => 1, b := fun _ => 0, DCt := fun c _ => if c = 1 then 1 else 0, d := d, mask := mask, idxb := id,
          idxs := fun _ => -1 }
      else
        { nux := if k = 1 then 1 else (if k = 0 then 1 else 0) + 1, nb := 0, ng := 0, ns := 0, H := fun i j => if i = j then 1 else 0,
          g := fun _ => 0, Z := fun _ => 0, BAbt := fun _ _ => 0, b := fun _ => 0, DCt := fun _ _ => 0, d := fun _ => 0,
          mask := fun _ => 1, idxb := id, idxs := fun _ => -1 } }

/-- the QP with bounds `-1/4 ≤ u ≤ 1/4` and `x = 1` -/
def qFull : Qp ℚ := qEx 2 0 (fun i => if i = 1 then 1 else if i = 3 then -1 else -1/4) (fun _ => 1)

/-- the same, with the state fixed by a row -/
def qRow : Qp ℚ := qEx 1 1 (fun i => if i = 1 then 1 else if i = 3 then -1 else -1/4) (fun _ => 1)

/-- the QP without bounds on the input: the bounds are masked, their values are zero -/
def qMask : Qp ℚ := qEx 2 0 (fun i => if i = 1 then 1 else if i = 3 then -1 else 0) (fun i => if i = 0 ∨ i = 2 then 0 else 1)

/-- default options, infinity `10^12` -/
def oEx : DOpts ℚ := ⟨false, false, 10 ^ 12⟩

/-- an empty workspace -/
def w0 : Work ℚ := ⟨fun _ => 7, fun _ => 7, fun _ => 7, fun _ => 7, fun _ => 7, fun _ => 7, fun _ => 7, fun _ => 7, fun _ => 7, fun _ => 7,
  fun _ => 7, fun _ => 7⟩

/-- a memory with data of an earlier QP -/
def m0 (first : Bool) : DMem ℚ := ⟨fun _ => ⟨fun _ _ => 9, fun _ => 9, fun _ _ => 9, fun _ => 9, fun _ => 9, fun _ => 9, fun _ _ => 9, fun _ => 9, fun _ => 9⟩,
  first, 0⟩

/-- the memory after a call with QP `q` -/
def after (q : Qp ℚ) : DMem ℚ := match updateMemory oEx (1/100000000) 13 (fun _ => 0) (m0 false, w0, q) with
  | .ok a => a.1
  | _ => m0 true

theorem qEx_ok (nb ng : Nat) (d mask : Nat → ℚ) (h : nb ≤ 2) : QpOk (qEx nb ng d mask) := by
  have hN : (qEx nb ng d mask).N = 1 := rfl
  refine ⟨fun k _ => rfl, fun k hk => ?_, rfl, fun k hk => ?_⟩
  · rw [hN] at hk; have : k = 0 := by omega
    subst this; rfl
  · rw [hN] at hk
    have : k = 0 ∨ k = 1 := by omega
    rcases this with rfl | rfl
    · exact ⟨fun i _ j _ => by show (if i = j then (1 : ℚ) else 0) = if j = i then 1 else 0; simp only [eq_comm],
        fun i (hi : i < nb) => by show i < 1 + 1; omega, fun i _ j _ e => e⟩
    · exact ⟨fun i _ j _ => by show (if i = j then (1 : ℚ) else 0) = if j = i then 1 else 0; simp only [eq_comm],
        fun i (hi : i < 0) => by omega, fun i _ j _ e => e⟩

theorem after_holds (nb ng : Nat) (d mask : Nat → ℚ) (h : nb ≤ 2) :
    (∃ a, updateMemory oEx (1/100000000) 13 (fun _ => 0) (m0 false, w0, qEx nb ng d mask) = .ok a) ∧
    Holds oEx.inf (qEx nb ng d mask) (after (qEx nb ng d mask)).st := by
  have e : ∃ a, updateMemory oEx (1/100000000) 13 (fun _ => 0) (m0 false, w0, qEx nb ng d mask) = .ok a := ⟨_, rfl⟩
  refine ⟨e, ?_⟩
  obtain ⟨a, e⟩ := e
  have := (C83_data oEx rfl _ _ _ (m0 false) w0 _ (qEx_ok nb ng d mask h) rfl a e).1
  unfold after
  rw [e]
  exact this

theorem qEx_st (nb ng : Nat) (d mask : Nat → ℚ) : ∀ k, k ≠ 0 → ((qEx nb ng d mask).st k).nb = 0 ∧ ((qEx nb ng d mask).st k).m = 0 ∧
    ((qEx nb ng d mask).st k).nux = 1 := by
  intro k hk
  unfold qEx Stage.m
  simp only [if_neg hk, true_and]
  split_ifs <;> rfl

theorem qEx_wf (nb ng : Nat) (d mask : Nat → ℚ) (h : nb ≤ 2) (hm : ∀ r, mask r = 0 ∨ mask r = 1) : WF (qEx nb ng d mask) := by
  have st0 := qEx_st nb ng d mask
  refine ⟨fun k => ?_, fun k j hj => ?_, fun k r hr => ?_, fun k r => ?_⟩
  · by_cases e : k = 0
    · subst e; rfl
    · rw [(st0 k e).2.2]; show 1 = (if k = 0 then 1 else 0) + 1; rw [if_neg e]
  · by_cases e : k = 0
    · subst e; have : j < nb := hj; show j < 2; omega
    · rw [(st0 k e).1] at hj; omega
  · left
    by_cases e : k = 0
    · subst e; rfl
    · rw [(st0 k e).2.1] at hr; omega
  · unfold qEx; simp only
    split_ifs
    · exact hm r
    · right; rfl
    · right; rfl

theorem qEx_supported (nb ng : Nat) (d : Nat → ℚ) (h : nb ≤ 2) (hd : ∀ r < nb, -(10 ^ 12) < d r ∧ - d (nb + ng + r) < 10 ^ 12) :
    Supported oEx.inf (qEx nb ng d (fun _ => 1)) := by
  have st0 := qEx_st nb ng d (fun _ => 1)
  refine ⟨qEx_wf nb ng d _ h fun _ => .inr rfl, qEx_ok nb ng d _ h, fun k _ => ?_, fun k _ r => ?_, fun k hk r hr => ?_⟩
  · unfold qEx; simp only; split_ifs <;> rfl
  · unfold qEx; simp only; split_ifs <;> rfl
  · by_cases e : k = 0
    · subst e; exact hd r hr
    · rw [(st0 k e).1] at hr; omega

theorem full_supported : Supported oEx.inf qFull := qEx_supported 2 0 _ (by decide) (by decide +kernel)
theorem row_supported : Supported oEx.inf qRow := qEx_supported 1 1 _ (by decide) (by decide +kernel)

/-- the solution in the order of qpDUNES: `x = 1`, `u = -1/4`, `x⁺ = 3/4` -/
def zEx (k j : Nat) : ℚ := if k = 0 then (if j = 0 then 1 else -1/4) else 3/4

/-- `C83_kkt_partial` has an instance, with active bounds -/
theorem full_kkt : DKkt oEx.inf (problem qFull (after qFull)) zEx (fun _ _ => 3/4)
    (fun k i => if k = 0 then (if i = 0 then 7/4 else if i = 2 then 1/2 else 0) else 0) :=
  ⟨⟨by decide +kernel, by decide +kernel, by decide +kernel, by decide +kernel, by decide +kernel⟩, by decide +kernel, by decide +kernel,
   by decide +kernel, by decide +kernel, by decide +kernel⟩

example : ∃ w, fillOut qFull zEx (fun _ _ => 3/4) (fun k i => if k = 0 then (if i = 0 then 7/4 else if i = 2 then 1/2 else 0) else 0)
    ⟨fun _ _ => 5, fun _ _ => 5, fun _ _ => 5⟩ = some w ∧ Kkt qFull w :=
  C83_kkt_partial oEx.inf qFull full_supported (fun k hk => by
    have : k = 0 ∨ k = 1 := by have : k ≤ 1 := hk; omega
    rcases this with rfl | rfl
    · exact .inr (.inl ⟨rfl, fun i _ => rfl⟩)
    · exact .inl rfl) (after qFull) (after_holds 2 0 _ _ (by decide)).2 zEx _ _ full_kkt _

/-- With a bound on the input only (the state is fixed by a row), qpDUNES returns multipliers that satisfy the optimality
conditions, the vector of the caller is long enough, and still the multipliers handed back are wrong. -/
theorem C83_lam_false : ∃ (q : Qp ℚ) (m : DMem ℚ) (z lamD y : Nat → Nat → ℚ) (old w : Sol ℚ), Supported oEx.inf q ∧ Holds oEx.inf q m.st ∧
    DKkt oEx.inf (problem q m) z lamD y ∧ fillOut q z lamD y old = some w ∧ w.lam 0 0 = 0 ∧ ¬ Kkt q w := by
  refine ⟨qRow, after qRow, zEx, fun _ _ => 3/4, fun k i => if k = 0 then (if i = 4 then 7/4 else if i = 2 then 1/2 else 0) else 0,
    ⟨fun _ _ => 5, fun _ _ => 5, fun _ _ => 5⟩, _, row_supported, (after_holds 1 1 _ _ (by decide)).2,
    ⟨⟨by decide +kernel, by decide +kernel, by decide +kernel, by decide +kernel, by decide +kernel⟩, by decide +kernel, by decide +kernel,
     by decide +kernel, by decide +kernel, by decide +kernel⟩, rfl, by decide +kernel, fun h => ?_⟩
  have h := h.statUx 0 (by decide) 0 (by decide)
  revert h
  decide +kernel

/-- the QP with `u = 0` and `x = 1` by bounds that are not masked -/
def qZero : Qp ℚ := qEx 2 0 (fun i => if i = 1 then 1 else if i = 3 then -1 else 0) (fun _ => 1)

theorem zero_supported : Supported oEx.inf qZero := qEx_supported 2 0 _ (by decide) (by decide +kernel)

theorem zero_min : DIsMin oEx.inf (problem qZero (after qZero)) (fun k j => if k = 0 then (if j = 0 then 1 else 0) else 1) := by
  have nv0 : (problem qZero (after qZero)).nv 0 = 2 := rfl
  have nv1 : (problem qZero (after qZero)).nv 1 = 1 := rfl
  refine ⟨⟨by decide +kernel, by decide +kernel, by decide +kernel, by decide +kernel, by decide +kernel⟩, fun z' h => ?_⟩
  have l0 := h.low 0 (by decide) 0 (by decide) (by decide +kernel)
  have l1 := h.low 0 (by decide) 1 (by decide) (by decide +kernel)
  have u0 := h.upp 0 (by decide) 0 (by decide) (by decide +kernel)
  have u1 := h.upp 0 (by decide) 1 (by decide) (by decide +kernel)
  have dy := h.dyn 0 (by decide) 0 (by decide)
  have c1 : ((problem qZero (after qZero)).st 0).zLow 0 = 1 := by decide +kernel
  have c2 : ((problem qZero (after qZero)).st 0).zLow 1 = 0 := by decide +kernel
  have c3 : ((problem qZero (after qZero)).st 0).zUpp 0 = 1 := by decide +kernel
  have c4 : ((problem qZero (after qZero)).st 0).zUpp 1 = 0 := by decide +kernel
  have c5 : ((problem qZero (after qZero)).st 0).C 0 0 = 1 := by decide +kernel
  have c6 : ((problem qZero (after qZero)).st 0).C 0 1 = 1 := by decide +kernel
  have c7 : ((problem qZero (after qZero)).st 0).c 0 = 0 := by decide +kernel
  rw [c1] at l0; rw [c2] at l1; rw [c3] at u0; rw [c4] at u1
  rw [nv0, sum_range_succ, sum_range_one, c5, c6, c7] at dy
  have e0 : z' 0 0 = 1 := le_antisymm u0 l0
  have e1 : z' 0 1 = 0 := le_antisymm u1 l1
  have e2 : z' 1 0 = 1 := by rw [e0, e1] at dy; linarith
  apply le_of_eq
  unfold dvalue
  rw [show (problem qZero (after qZero)).N = 1 from rfl]
  simp only [sum_range_succ, sum_range_zero, nv0, nv1, e0, e1, e2]
  norm_num

/-- `C83_primal` and `C83_solvable` have an instance -/
example : (∃ w, fillOut qZero (fun k j => if k = 0 then (if j = 0 then 1 else 0) else 1) (fun _ _ => 0) (fun _ _ => 0)
      ⟨fun _ _ => 5, fun _ _ => 5, fun _ _ => 5⟩ = some w ∧ IsMin qZero w.ux) ∧ ∃ ux, IsMin qZero ux :=
  ⟨⟨_, rfl, C83_primal oEx.inf qZero zero_supported (after qZero) (after_holds 2 0 _ _ (by decide)).2 _ _ _ _ _ zero_min rfl⟩,
   (C83_solvable oEx.inf qZero zero_supported (after qZero) (after_holds 2 0 _ _ (by decide)).2).2.1 ⟨_, zero_min⟩⟩

open Classical in
/-- `C83_call` has an instance: an exact solver, and a QP with a solution -/
example : ∃ (solve : DQp ℚ → Answer ℚ) (v : Int) (a1 : DMem ℚ × Work ℚ × Qp ℚ) (out : Sol ℚ),
    (∀ p, (solve p).code = .optimal → DIsMin oEx.inf p (solve p).z) ∧
    call oEx (1/100000000) 13 (fun _ => 0) (fun _ => 1) solve (m0 false, w0, qZero) ⟨fun _ _ => 5, fun _ _ => 5, fun _ _ => 5⟩
      = .ret v a1 out ∧ v = 0 ∧ IsMin qZero out.ux := by
  let solve : DQp ℚ → Answer ℚ := fun p => if h : ∃ z, DIsMin oEx.inf p z then ⟨.optimal, h.choose, fun _ _ => 0, fun _ _ => 0⟩
    else ⟨.other, fun _ _ => 0, fun _ _ => 0, fun _ _ => 0⟩
  have hm : ∀ p, (solve p).code = .optimal → DIsMin oEx.inf p (solve p).z := by
    intro p
    by_cases h : ∃ z, DIsMin oEx.inf p z
    · intro _; simp only [solve, dif_pos h]; exact h.choose_spec
    · simp only [solve, dif_neg h]; intro h; cases h
  have hc : ∃ v a1 out, call oEx (1/100000000) 13 (fun _ => 0) (fun _ => 1) solve (m0 false, w0, qZero)
      ⟨fun _ _ => 5, fun _ _ => 5, fun _ _ => 5⟩ = .ret v a1 out ∧ a1.1.st = (after qZero).st := ⟨_, _, _, rfl, rfl⟩
  obtain ⟨v, a1, out, hc, ha⟩ := hc
  refine ⟨solve, v, a1, out, hm, hc, ?_⟩
  have hopt : (solve (problem qZero a1.1)).code = .optimal := by
    have : problem qZero a1.1 = problem qZero (after qZero) := by unfold problem; rw [ha]
    simp only [solve, this]
    rw [dif_pos ⟨_, zero_min⟩]
  rcases C83_call oEx rfl _ _ _ _ solve (m0 false) rfl w0 qZero zero_supported hm _ out v a1 hc with ⟨k, -, h, -⟩ | ⟨-, h⟩
  · exact absurd rfl h
  · exact h hopt

theorem mask_min : DIsMin oEx.inf (problem qMask (after qMask)) (fun k j => if k = 0 then (if j = 0 then 1 else 0) else 1) := by
  have nv0 : (problem qMask (after qMask)).nv 0 = 2 := rfl
  have nv1 : (problem qMask (after qMask)).nv 1 = 1 := rfl
  refine ⟨⟨by decide +kernel, by decide +kernel, by decide +kernel, by decide +kernel, by decide +kernel⟩, fun z' h => ?_⟩
  have l0 := h.low 0 (by decide) 0 (by decide) (by decide +kernel)
  have l1 := h.low 0 (by decide) 1 (by decide) (by decide +kernel)
  have u0 := h.upp 0 (by decide) 0 (by decide) (by decide +kernel)
  have u1 := h.upp 0 (by decide) 1 (by decide) (by decide +kernel)
  have dy := h.dyn 0 (by decide) 0 (by decide)
  have c1 : ((problem qMask (after qMask)).st 0).zLow 0 = 1 := by decide +kernel
  have c2 : ((problem qMask (after qMask)).st 0).zLow 1 = 0 := by decide +kernel
  have c3 : ((problem qMask (after qMask)).st 0).zUpp 0 = 1 := by decide +kernel
  have c4 : ((problem qMask (after qMask)).st 0).zUpp 1 = 0 := by decide +kernel
  have c5 : ((problem qMask (after qMask)).st 0).C 0 0 = 1 := by decide +kernel
  have c6 : ((problem qMask (after qMask)).st 0).C 0 1 = 1 := by decide +kernel
  have c7 : ((problem qMask (after qMask)).st 0).c 0 = 0 := by decide +kernel
  rw [c1] at l0; rw [c2] at l1; rw [c3] at u0; rw [c4] at u1
  rw [nv0, sum_range_succ, sum_range_one, c5, c6, c7] at dy
  have e0 : z' 0 0 = 1 := le_antisymm u0 l0
  have e1 : z' 0 1 = 0 := le_antisymm u1 l1
  have e2 : z' 1 0 = 1 := by rw [e0, e1] at dy; linarith
  apply le_of_eq
  unfold dvalue
  rw [show (problem qMask (after qMask)).N = 1 from rfl]
  simp only [sum_range_succ, sum_range_zero, nv0, nv1, e0, e1, e2]
  norm_num

/-- Masked bounds are handed over as bounds: the minimiser of the problem handed over is not one of the QP. -/
theorem C83_mask_false : ∃ (q : Qp ℚ) (m : DMem ℚ) (z lamD y : Nat → Nat → ℚ) (old w : Sol ℚ), WF q ∧ QpOk q ∧ Holds oEx.inf q m.st ∧
    (∀ k ≤ q.N, (q.st k).ns = 0) ∧ DIsMin oEx.inf (problem q m) z ∧ fillOut q z lamD y old = some w ∧ ¬ IsMin q w.ux := by
  refine ⟨qMask, after qMask, fun k j => if k = 0 then (if j = 0 then 1 else 0) else 1, fun _ _ => 0, fun _ _ => 0,
    ⟨fun _ _ => 5, fun _ _ => 5, fun _ _ => 5⟩, _, ?_, qEx_ok 2 0 _ _ (by decide), (after_holds 2 0 _ _ (by decide)).2, ?_, ?_, rfl, ?_⟩
  · exact qEx_wf 2 0 _ _ (by decide) fun r => by split_ifs <;> simp
  · decide
  · exact mask_min
  · intro h
    have h2 := h.2 (fun k r => if k = 0 then (if r = 0 then -1/2 else 1) else 1/2)
      ⟨by decide +kernel, by decide +kernel, by decide +kernel, by decide +kernel⟩
    revert h2
    decide +kernel

/-- A call that fails while data are handed over returns a code of qpDUNES and leaves the recorded status of the call before. -/
theorem C83_status_false : ∃ (o : DOpts ℚ) (eps : ℚ) (invalid : Int) (rv : Nat → Int) (raw : Code → Int) (solve : DQp ℚ → Answer ℚ)
    (a : DMem ℚ × Work ℚ × Qp ℚ) (old out : Sol ℚ) (v : Int) (a1 : DMem ℚ × Work ℚ × Qp ℚ),
    call o eps invalid rv raw solve a old = .ret v a1 out ∧ v = 17 ∧ a1.1.status = 0 :=
  ⟨oEx, 1, 13, fun k => if k = 1 then 17 else 0, fun _ => 1, fun _ => ⟨.optimal, fun _ _ => 0, fun _ _ => 0, fun _ _ => 0⟩,
    (m0 false, w0, qFull), ⟨fun _ _ => 5, fun _ _ => 5, fun _ _ => 5⟩, _, _, _, rfl, rfl, rfl⟩

/-- two states, no inputs, one interval -/
def qTwo : Qp ℚ :=
  { N := 1, nx := fun _ => 2, nu := fun _ => 0
    st := fun _ =>
      { nux := 2, nb := 0, ng := 0, ns := 0, H := fun i j => if i = j then 1 else 0, g := fun _ => 0, Z := fun _ => 0,
        BAbt := fun i j => if i = j then 1 else 0, b := fun _ => 0, DCt := fun _ _ => 0, d := fun _ => 0, mask := fun _ => 1, idxb := id,
        idxs := fun _ => -1 } }

theorem qTwo_ok : QpOk qTwo :=
  ⟨fun _ _ => rfl, fun _ _ => rfl, rfl, fun _ _ => ⟨fun i _ j _ => by
    show (if i = j then (1 : ℚ) else 0) = if j = i then 1 else 0; simp only [eq_comm], fun i (hi : i < 0) => by omega, fun _ _ _ _ e => e⟩⟩

/-- `C83_first` and `C83_first_false` have an instance -/
example : ∃ a1, updateMemory oEx (1/100000000) 13 (fun _ => 0) (m0 true, w0, qTwo) = .ok a1 ∧ ¬ Holds oEx.inf qTwo a1.1.st ∧
    (a1.2.2.st 1).H 0 1 = 1/100000000 := by
  refine ⟨_, rfl, (C83_first_false oEx rfl _ (by norm_num) 13 (fun _ => 0) (m0 true) w0 qTwo qTwo_ok rfl _ rfl).1, by decide +kernel⟩

/-- A first call that fails leaves the perturbation in the QP of the caller, and the next call adds it again: the QP solved is
off by twice the amount. -/
theorem C83_retry_false : ∃ (c : Int) (a1 a2 : DMem ℚ × Work ℚ × Qp ℚ),
    updateMemory oEx (1/100000000) 13 (fun k => if k = 2 then 17 else 0) (m0 true, w0, qTwo) = .code c a1 ∧ c = 17 ∧
    updateMemory oEx (1/100000000) 13 (fun _ => 0) a1 = .ok a2 ∧ (a2.1.st 1).H 0 1 = 2/100000000 ∧ (a2.2.2.st 1).H 0 1 = 2/100000000 :=
  ⟨_, _, _, rfl, rfl, rfl, by decide +kernel, by decide +kernel⟩

/-- `qFull` with another initial state -/
def qMove : Qp ℚ := qEx 2 0 (fun i => if i = 1 then 2 else if i = 3 then -2 else -1/4) (fun _ => 1)

/-- `C83_linear` has an instance -/
example : ∃ a1, updateMemory ⟨false, true, 10 ^ 12⟩ (1/100000000) 13 (fun _ => 0) (after qFull, w0, qMove) = .ok a1 ∧
    Holds (10 ^ 12) qMove a1.1.st :=
  ⟨_, rfl, (C83_linear ⟨false, true, 10 ^ 12⟩ rfl (1/100000000) 13 (fun _ => 0) (after qFull) w0 qFull qMove (qEx_ok 2 0 _ _ (by decide)) (by decide) rfl
    (after_holds 2 0 _ _ (by decide)).2 ⟨rfl, rfl, rfl⟩ (fun k hk => by unfold qFull qMove qEx; simp only [if_neg hk]) rfl
    (fun i hi => absurd hi (by show ¬ i < 0; omega)) _ rfl).1⟩

/-- `C83_clip` has an instance on both sides: without cross terms the QP is handed over, with a row it is refused -/
example : (∃ a1, updateMemory ⟨true, false, 10 ^ 12⟩ (1/100000000) 13 (fun _ => 0) (m0 true, w0, qFull) = .ok a1 ∧
      Holds (10 ^ 12) qFull a1.1.st) ∧
    updateMemory ⟨true, false, 10 ^ 12⟩ (1/100000000) 13 (fun _ => 0) (m0 true, w0, qRow) = .code 13 (m0 true, w0, qRow) := by
  refine ⟨?_, ?_⟩
  · have e : ∃ a1, updateMemory ⟨true, false, 10 ^ 12⟩ (1/100000000) 13 (fun _ => 0) (m0 true, w0, qFull) = .ok a1 := by
      have hn : needsQpoases qFull = false := by decide +kernel
      unfold updateMemory setupAll
      simp only [hn]
      exact ⟨_, rfl⟩
    obtain ⟨a1, e⟩ := e
    exact ⟨a1, e, ((C83_clip ⟨true, false, 10 ^ 12⟩ rfl _ 13 (by decide) (fun _ => 0) (m0 true) w0 qFull (qEx_ok 2 0 _ _ (by decide)) rfl _ e).1 a1 rfl).1⟩
  · exact (C83_clip ⟨true, false, 10 ^ 12⟩ rfl _ 13 (by decide) (fun _ => 0) (m0 true) w0 qRow (qEx_ok 1 1 _ _ (by decide)) rfl _ rfl).2
      (.inl ⟨0, by decide, by decide⟩)

/-- `C83_dims` has instances on both sides -/
example : dimsOk 3 (fun _ => 2) (fun k => if k < 3 then 1 else 0) = true ∧ dimsOk 3 (fun k => if k = 2 then 4 else 2) (fun _ => 0) = false := by
  decide

end examples

end Acados.Dunes
