import Verif.Lemmas.OcpDims
import Mathlib.Algebra.Order.Ring.Rat
import Mathlib.Algebra.Field.Rat

/-!
# C99: dimensions of constraints and soft constraints in a problem description

`makeConsistent d = some r`: `AcadosOcp.make_consistent` accepts the description `d`, as far as the constraints
are concerned, with the numbers of slacks `r.ns0`, `r.ns`, `r.nse`, and leaves the description `r.d`.
-/

namespace Acados.OcpDims

section
variable {K : Type} [Field K] [LinearOrder K]

theorem prepare_path (d : Desc K) : (prepare d).path = d.path ∧ (prepare d).term = d.term ∧
    (prepare d).nx = d.nx ∧ (prepare d).nu = d.nu ∧ (prepare d).N = d.N ∧ (prepare d).qp = d.qp ∧
    (prepare d).feasQp = d.feasQp ∧ (prepare d).init.bx = d.init.bx ∧ (prepare d).init.h = d.init.h ∧
    (prepare d).init.nh = d.init.nh ∧ (prepare d).init.phi = d.init.phi ∧ (prepare d).init.nphi = d.init.nphi ∧
    (prepare d).init.nr = d.init.nr ∧ (prepare d).init.sh = d.init.sh ∧ (prepare d).init.sphi = d.init.sphi ∧
    (prepare d).init.rev = d.init.rev ∧ (prepare d).init.pen = d.init.pen := by
  unfold prepare
  split <;> exact ⟨rfl, rfl, rfl, rfl, rfl, rfl, rfl, rfl, rfl, rfl, rfl, rfl, rfl, rfl, rfl, rfl, rfl⟩

theorem prepare_id (d : Desc K) (h : d.qp ≠ .partialQpdunes) : prepare d = d := by
  unfold prepare; rw [if_neg h]

/-- Intermediate stages of an accepted description: the bounds are as many as the indices, no index exceeds the
number of states or controls, the matrices of general constraints have `ng` rows and `nx`, `nu` columns, there
are bounds for all nonlinear constraints.  Partial: indices may be negative or repeated, the bounds of
convex-over-nonlinear constraints are not checked (see the counterexamples). -/
theorem C99_path_partial (d : Desc K) (r : Result K) (hN : d.N ≠ 0) (h : makeConsistent d = some r) :
    (d.path.bx.Sized ∧ Below d.path.bx.idx d.nx) ∧ (d.path.bu.Sized ∧ Below d.path.bu.idx d.nu) ∧
    (d.path.g.Sized d.path.g.l.length ∧ d.path.C.rows = d.path.g.l.length ∧ d.path.D.rows = d.path.g.l.length ∧
      (0 < d.path.g.l.length → d.path.C.cols = d.nx ∧ d.path.D.cols = d.nu)) ∧
    d.path.h.Sized d.path.nh ∧ (0 < d.path.nphi → 0 < d.path.nr) := by
  obtain ⟨⟨-, h2, -⟩, -⟩ := (makeConsistent_some d r hN).mp h
  obtain ⟨e1, -, e3, e4, -⟩ := prepare_path d
  rw [e1, e3, e4, pathOk_iff] at h2
  exact h2

/-- Initial stage of an accepted description.  Partial: as for the intermediate stages. -/
theorem C99_init_partial (d : Desc K) (r : Result K) (hN : d.N ≠ 0) (h : makeConsistent d = some r) :
    (d.init.bx.Sized ∧ Below d.init.bx.idx d.nx) ∧
    (d.qp ≠ .partialQpdunes → Below d.init.idxbxe d.init.bx.idx.length) ∧
    d.init.h.Sized d.init.nh ∧ (0 < d.init.nphi → 0 < d.init.nr) := by
  obtain ⟨⟨h1, -⟩, -⟩ := (makeConsistent_some d r hN).mp h
  have h1' := h1
  obtain ⟨-, -, e3, -, -, -, -, e8, e9, e10, -, e12, e13, -⟩ := prepare_path d
  rw [initOk_iff, e3, e8, e9, e10, e12, e13] at h1
  refine ⟨h1.1, ?_, h1.2.2.2.2⟩
  intro hq
  rw [prepare_id d hq, initOk_iff] at h1'
  exact h1'.2.2.2.1

/-- If the initial state is given by `x0`, all states are fixed: all have bounds, all bounds are equalities.
Partial: not for a single state, `C99_x0_counterexample`. -/
theorem C99_x0_partial (d : Desc K) (r : Result K) (hN : d.N ≠ 0) (h : makeConsistent d = some r)
    (hx : d.init.hasX0 = true) (hq : d.qp ≠ .partialQpdunes) (h1 : 2 ≤ d.nx) :
    d.init.bx.idx.length = d.nx ∧ d.init.idxbxe = (List.range d.nx).map (fun i : Nat => (i : Int)) := by
  obtain ⟨⟨h2, -⟩, -⟩ := (makeConsistent_some d r hN).mp h
  rw [prepare_id d hq, initOk_iff] at h2
  refine ⟨h2.2.1 hx, ?_⟩
  have ha := h2.2.2.1 hx
  unfold allEqArange at ha
  dsimp only at ha
  split at ha
  · simpa using ha
  · split at ha
    · rename_i v _ _
      simp only [Option.some.injEq, List.all_eq_true, List.mem_map, List.mem_range, beq_iff_eq] at ha
      have a0 := ha 0 ⟨0, by omega, rfl⟩
      have a1 := ha 1 ⟨1, by omega, rfl⟩
      omega
    · omega
    · cases ha

/-- Terminal stage of an accepted description, also for `N_horizon = 0`.  Partial: as for the intermediate
stages, and the number of columns of `C_e` is not checked. -/
theorem C99_term_partial (d : Desc K) (r : Result K) (h : makeConsistent d = some r) :
    (d.term.bx.Sized ∧ Below d.term.bx.idx d.nx) ∧
    (d.term.g.Sized d.term.g.l.length ∧ d.term.C.rows = d.term.g.l.length) ∧ d.term.h.Sized d.term.nh ∧
    (0 < d.term.nphi → 0 < d.term.nr) := by
  obtain ⟨-, e2, e3, -, e5, -⟩ := prepare_path d
  have key : termOk d.nx d.term = true := by
    by_cases hN : d.N = 0
    · unfold makeConsistent at h
      dsimp only at h
      rw [if_pos (by rw [e5]; exact hN)] at h
      split at h
      · rename_i hc
        simp only [Bool.and_eq_true] at hc
        rw [e2, e3] at hc
        exact hc.1.1.1
      · cases h
    · obtain ⟨⟨-, -, h3, -⟩, -⟩ := (makeConsistent_some d r hN).mp h
      rwa [e2, e3] at h3
  exact (termOk_iff _ _).mp key

/-- Soft constraints of the intermediate stages, given by `idxs*`: the number of slacks is the number of soft
constraints; there are not more soft constraints of a kind than constraints; each slack has the given bounds, or
zeros; each slack has its penalties. -/
theorem C99_soft_path (d : Desc K) (r : Result K) (hN : d.N ≠ 0) (h : makeConsistent d = some r)
    (hr : d.path.rev.idx = []) :
    r.ns = d.path.sbx.idx.length + d.path.sbu.idx.length + d.path.sh.idx.length + d.path.sg.idx.length
      + d.path.sphi.idx.length ∧
    d.path.pen.Sized r.ns ∧
    ∀ n s t, (n, s, t) ∈ [(d.path.bx.idx.length, d.path.sbx, r.d.path.sbx),
        (d.path.bu.idx.length, d.path.sbu, r.d.path.sbu), (d.path.g.l.length, d.path.sg, r.d.path.sg),
        (d.path.nh, d.path.sh, r.d.path.sh), (d.path.nphi, d.path.sphi, r.d.path.sphi)] →
      s.idx.length ≤ n ∧ Below s.idx n ∧ t.idx = s.idx ∧
      t.l.length = s.idx.length ∧ t.u.length = s.idx.length ∧
      (s.l ≠ [] → t.l = s.l) ∧ (s.u ≠ [] → t.u = s.u) ∧
      (s.l = [] → ∀ v ∈ t.l, v = 0) ∧ (s.u = [] → ∀ v ∈ t.u, v = 0) := by
  obtain ⟨-, ns, q, ns0, p, nse, t, h1, -, -, rfl⟩ := (makeConsistent_some d r hN).mp h
  obtain ⟨e1, -⟩ := prepare_path d
  rw [e1, hr] at h1
  simp only [List.isEmpty_nil, if_true] at h1
  obtain ⟨⟨a1, a2, a3, a4, a5, a6⟩, hns, rfl⟩ := (slacksPath_iff _ _ _).mp h1
  refine ⟨hns, (penOk_iff _ _).mp a6, ?_⟩
  intro n s t hm
  have key : ∀ n (s : Soft K), softOk n s = true →
      s.idx.length ≤ n ∧ Below s.idx n ∧ (softFill s).idx = s.idx ∧
      (softFill s).l.length = s.idx.length ∧ (softFill s).u.length = s.idx.length ∧
      (s.l ≠ [] → (softFill s).l = s.l) ∧ (s.u ≠ [] → (softFill s).u = s.u) ∧
      (s.l = [] → ∀ v ∈ (softFill s).l, v = 0) ∧ (s.u = [] → ∀ v ∈ (softFill s).u, v = 0) := by
    intro n s hs
    rw [softOk_iff] at hs
    exact ⟨hs.1, hs.2.1, rfl, softFill_spec s hs.2.2⟩
  simp only [List.mem_cons, Prod.mk.injEq, List.not_mem_nil, or_false] at hm
  rcases hm with ⟨rfl, rfl, rfl⟩ | ⟨rfl, rfl, rfl⟩ | ⟨rfl, rfl, rfl⟩ | ⟨rfl, rfl, rfl⟩ | ⟨rfl, rfl, rfl⟩
  exacts [key _ _ a1, key _ _ a2, key _ _ a5, key _ _ a3, key _ _ a4]

/-- Soft constraints of the initial stage, given by `idxs*`: the slacks are those of the control bounds and the
general constraints of the intermediate stages and of the nonlinear constraints of the initial stage.  Each slack
has its penalties: those given for the initial stage; if none are given and there are slacks, as many as in the
intermediate stages, their penalties. -/
theorem C99_soft_init (d : Desc K) (r : Result K) (hN : d.N ≠ 0) (h : makeConsistent d = some r)
    (hr : d.path.rev.idx = []) (hr0 : d.init.rev.idx = []) :
    r.ns0 = d.path.sbu.idx.length + d.path.sg.idx.length + d.init.sphi.idx.length + d.init.sh.idx.length ∧
    (∃ z : Pen K, r.d.init.pen = ⟨some z.zl, some z.zu, some z.Zl, some z.Zu⟩ ∧ z.Sized r.ns0 ∧
      (d.init.pen = ⟨none, none, none, none⟩ → r.ns0 ≠ 0 → r.ns0 = r.ns ∧ z = d.path.pen) ∧
      (d.init.pen ≠ ⟨none, none, none, none⟩ → r.d.init.pen = d.init.pen)) ∧
    ∀ n s t, (n, s, t) ∈ [(d.init.nh, d.init.sh, r.d.init.sh), (d.init.nphi, d.init.sphi, r.d.init.sphi)] →
      s.idx.length ≤ n ∧ Below s.idx n ∧ t.idx = s.idx ∧
      t.l.length = s.idx.length ∧ t.u.length = s.idx.length ∧
      (s.l ≠ [] → t.l = s.l) ∧ (s.u ≠ [] → t.u = s.u) ∧
      (s.l = [] → ∀ v ∈ t.l, v = 0) ∧ (s.u = [] → ∀ v ∈ t.u, v = 0) := by
  obtain ⟨-, ns, q, ns0, p, nse, t, h1, h2, -, rfl⟩ := (makeConsistent_some d r hN).mp h
  obtain ⟨e1, -, -, -, -, -, -, -, -, e10, -, e12, -, e14, e15, e16, e17⟩ := prepare_path d
  rw [e16, hr0] at h2
  rw [e1, hr] at h2
  simp only [List.isEmpty_nil, if_true] at h2
  obtain ⟨⟨a1, a2⟩, hns, z, hz, hpz, rfl⟩ := (slacksInit_iff _ _ _ _ _ _ _).mp h2
  dsimp only
  rw [e10, e14] at a1
  rw [e12, e15] at a2
  rw [e14, e15] at hns
  rw [e17] at hz
  refine ⟨hns, ⟨z, rfl, (penOk_iff _ _).mp hpz, ?_, ?_⟩, ?_⟩
  · intro hp0 hne
    rw [hp0] at hz
    simp only [initPen] at hz
    rw [if_neg hne] at hz
    split at hz
    · rename_i he
      exact ⟨he, (Option.some.inj hz).symm⟩
    · cases hz
  · intro hp0
    unfold initPen at hz
    split at hz
    · rename_i he
      exact absurd he hp0
    · rename_i a b c e he
      have := Option.some.inj hz
      subst this
      exact he.symm
    · cases hz
  · intro n s t hm
    have key : ∀ n (s : Soft K), softOk n s = true →
        s.idx.length ≤ n ∧ Below s.idx n ∧ (softFill s).idx = s.idx ∧
        (softFill s).l.length = s.idx.length ∧ (softFill s).u.length = s.idx.length ∧
        (s.l ≠ [] → (softFill s).l = s.l) ∧ (s.u ≠ [] → (softFill s).u = s.u) ∧
        (s.l = [] → ∀ v ∈ (softFill s).l, v = 0) ∧ (s.u = [] → ∀ v ∈ (softFill s).u, v = 0) := by
      intro n s hs
      rw [softOk_iff] at hs
      exact ⟨hs.1, hs.2.1, rfl, softFill_spec s hs.2.2⟩
    rw [e14, e15] at hm
    simp only [List.mem_cons, Prod.mk.injEq, List.not_mem_nil, or_false] at hm
    rcases hm with ⟨rfl, rfl, rfl⟩ | ⟨rfl, rfl, rfl⟩
    exacts [key _ _ a1, key _ _ a2]

/-- Soft constraints of the terminal stage, given by `idxs*`, also for `N_horizon = 0`. -/
theorem C99_soft_term (d : Desc K) (r : Result K) (h : makeConsistent d = some r) (hr : d.term.rev.idx = []) :
    r.nse = d.term.sbx.idx.length + d.term.sh.idx.length + d.term.sg.idx.length + d.term.sphi.idx.length ∧
    d.term.pen.Sized r.nse ∧
    ∀ n s t, (n, s, t) ∈ [(d.term.bx.idx.length, d.term.sbx, r.d.term.sbx), (d.term.g.l.length, d.term.sg, r.d.term.sg),
        (d.term.nh, d.term.sh, r.d.term.sh), (d.term.nphi, d.term.sphi, r.d.term.sphi)] →
      s.idx.length ≤ n ∧ Below s.idx n ∧ t.idx = s.idx ∧
      t.l.length = s.idx.length ∧ t.u.length = s.idx.length ∧
      (s.l ≠ [] → t.l = s.l) ∧ (s.u ≠ [] → t.u = s.u) ∧
      (s.l = [] → ∀ v ∈ t.l, v = 0) ∧ (s.u = [] → ∀ v ∈ t.u, v = 0) := by
  obtain ⟨-, e2, -, -, e5, -⟩ := prepare_path d
  have key0 : slacksTerm d.term = some (r.nse, r.d.term) := by
    by_cases hN : d.N = 0
    · unfold makeConsistent at h
      dsimp only at h
      rw [if_pos (by rw [e5]; exact hN)] at h
      split at h
      · rw [e2, hr] at h
        simp only [List.isEmpty_nil, if_true] at h
        cases hs : slacksTerm d.term with
        | none => rw [hs] at h; cases h
        | some a =>
            rw [hs] at h
            have := Option.some.inj h
            subst this
            rfl
      · cases h
    · obtain ⟨-, ns, q, ns0, p, nse, t, -, -, h3, rfl⟩ := (makeConsistent_some d r hN).mp h
      rw [e2, hr] at h3
      simpa using h3
  obtain ⟨⟨a1, a2, a3, a4, a5⟩, hns, hq⟩ := (slacksTerm_iff _ _ _).mp key0
  refine ⟨hns, (penOk_iff _ _).mp a5, ?_⟩
  rw [hq]
  intro n s t hm
  have key : ∀ n (s : Soft K), softOk n s = true →
      s.idx.length ≤ n ∧ Below s.idx n ∧ (softFill s).idx = s.idx ∧
      (softFill s).l.length = s.idx.length ∧ (softFill s).u.length = s.idx.length ∧
      (s.l ≠ [] → (softFill s).l = s.l) ∧ (s.u ≠ [] → (softFill s).u = s.u) ∧
      (s.l = [] → ∀ v ∈ (softFill s).l, v = 0) ∧ (s.u = [] → ∀ v ∈ (softFill s).u, v = 0) := by
    intro n s hs
    rw [softOk_iff] at hs
    exact ⟨hs.1, hs.2.1, rfl, softFill_spec s hs.2.2⟩
  simp only [List.mem_cons, Prod.mk.injEq, List.not_mem_nil, or_false] at hm
  rcases hm with ⟨rfl, rfl, rfl⟩ | ⟨rfl, rfl, rfl⟩ | ⟨rfl, rfl, rfl⟩ | ⟨rfl, rfl, rfl⟩
  exacts [key _ _ a1, key _ _ a4, key _ _ a2, key _ _ a3]

/-- Soft constraints given by `idxs_rev`, intermediate stages: each of the constraints has an entry, the slacks are
numbered without gaps, each belongs to at least one constraint and has its penalties and bounds, given or zeros. No
other soft constraints are given for the initial and intermediate stages, and the QP solver is HPIPM. -/
theorem C99_rev_path (d : Desc K) (r : Result K) (hN : d.N ≠ 0) (h : makeConsistent d = some r)
    (hr : d.path.rev.idx ≠ []) :
    d.path.rev.Uses (d.path.bu.idx.length + d.path.bx.idx.length + d.path.nh + d.path.g.l.length + d.path.nphi) r.ns ∧
    d.path.pen.Sized r.ns ∧ r.d.path.rev.l.length = r.ns ∧ r.d.path.rev.u.length = r.ns ∧
    (d.path.rev.l ≠ [] → r.d.path.rev.l = d.path.rev.l) ∧ (d.path.rev.u ≠ [] → r.d.path.rev.u = d.path.rev.u) ∧
    (d.path.sbx.idx = [] ∧ d.path.sbu.idx = [] ∧ d.path.sg.idx = [] ∧ d.path.sh.idx = [] ∧ d.path.sphi.idx = []
      ∧ d.init.sh.idx = [] ∧ d.init.sphi.idx = []) ∧
    (d.qp = .partialHpipm ∨ d.qp = .fullHpipm) ∧ d.feasQp = false := by
  obtain ⟨⟨-, -, -, c4, c5, -⟩, ns, q, ns0, p, nse, t, h1, -, -, rfl⟩ := (makeConsistent_some d r hN).mp h
  obtain ⟨e1, e2, -, -, -, e6, e7, -, -, -, -, -, -, e14, e15, e16, -⟩ := prepare_path d
  have hne : d.path.rev.idx.isEmpty = false := by simpa using hr
  simp only [mixOk, revSolverOk, e1, e2, e6, e7, e14, e15, e16, hne, Bool.and_false, Bool.false_and,
    Bool.false_or] at c4 c5
  rw [e1, hne] at h1
  simp only [Bool.false_eq_true, if_false] at h1
  obtain ⟨a1, a2, rfl⟩ := (slacksRevPath_iff _ _ _).mp h1
  obtain ⟨u1, u2⟩ := (revNs_iff _ _ _).mp a1
  obtain ⟨f1, f2, f3, f4, -, -⟩ := revFill_spec _ _ u2
  refine ⟨u1, (penOk_iff _ _).mp a2, f1, f2, f3, f4, ?_, ?_⟩
  · simp only [Bool.and_eq_true, List.isEmpty_iff] at c4
    tauto
  · simpa only [Bool.and_eq_true, Bool.or_eq_true, beq_iff_eq, Bool.not_eq_true'] using c5

/-- Soft constraints given by `idxs_rev`, initial stage. -/
theorem C99_rev_init (d : Desc K) (r : Result K) (hN : d.N ≠ 0) (h : makeConsistent d = some r)
    (hr : d.init.rev.idx ≠ []) :
    d.init.rev.Uses (d.path.bu.idx.length + d.init.bx.idx.length + d.init.nh + d.path.g.l.length + d.init.nphi) r.ns0 ∧
    (∃ z : Pen K, d.init.pen = ⟨some z.zl, some z.zu, some z.Zl, some z.Zu⟩ ∧ z.Sized r.ns0) ∧
    r.d.init.rev.l.length = r.ns0 ∧ r.d.init.rev.u.length = r.ns0 ∧
    (d.init.rev.l ≠ [] → r.d.init.rev.l = d.init.rev.l) ∧ (d.init.rev.u ≠ [] → r.d.init.rev.u = d.init.rev.u) ∧
    (d.path.sbx.idx = [] ∧ d.path.sbu.idx = [] ∧ d.path.sg.idx = [] ∧ d.path.sh.idx = [] ∧ d.path.sphi.idx = []
      ∧ d.init.sh.idx = [] ∧ d.init.sphi.idx = []) ∧
    (d.qp = .partialHpipm ∨ d.qp = .fullHpipm) ∧ d.feasQp = false := by
  obtain ⟨⟨-, -, -, c4, c5, -⟩, ns, q, ns0, p, nse, t, -, h2, -, rfl⟩ := (makeConsistent_some d r hN).mp h
  obtain ⟨e1, e2, -, -, -, e6, e7, e8, -, e10, -, e12, -, e14, e15, e16, e17⟩ := prepare_path d
  have hne : d.init.rev.idx.isEmpty = false := by simpa using hr
  simp only [mixOk, revSolverOk, e1, e2, e6, e7, e14, e15, e16, hne, Bool.and_false, Bool.false_and,
    Bool.false_or] at c4 c5
  rw [e16, hne] at h2
  simp only [Bool.false_eq_true, if_false] at h2
  obtain ⟨a1, z, hz, a2, rfl⟩ := (slacksRevInit_iff _ _ _ _).mp h2
  rw [e1, e8, e10, e12, e16] at a1
  rw [e17] at hz
  obtain ⟨u1, u2⟩ := (revNs_iff _ _ _).mp a1
  obtain ⟨f1, f2, f3, f4, -, -⟩ := revFill_spec _ _ u2
  dsimp only
  rw [e16]
  refine ⟨u1, ⟨z, hz, (penOk_iff _ _).mp a2⟩, f1, f2, f3, f4, ?_, ?_⟩
  · simp only [Bool.and_eq_true, List.isEmpty_iff] at c4
    tauto
  · simpa only [Bool.and_eq_true, Bool.or_eq_true, beq_iff_eq, Bool.not_eq_true'] using c5

/-- Soft constraints given by `idxs_rev`, terminal stage.  Partial: those given by `idxs*` beside them are not
refused, `C99_mix_counterexample`. -/
theorem C99_rev_term_partial (d : Desc K) (r : Result K) (hN : d.N ≠ 0) (h : makeConsistent d = some r)
    (hr : d.term.rev.idx ≠ []) :
    d.term.rev.Uses (d.term.bx.idx.length + d.term.nh + d.term.g.l.length + d.term.nphi) r.nse ∧
    d.term.pen.Sized r.nse ∧ r.d.term.rev.l.length = r.nse ∧ r.d.term.rev.u.length = r.nse ∧
    (d.term.rev.l ≠ [] → r.d.term.rev.l = d.term.rev.l) ∧ (d.term.rev.u ≠ [] → r.d.term.rev.u = d.term.rev.u) ∧
    (d.qp = .partialHpipm ∨ d.qp = .fullHpipm) ∧ d.feasQp = false := by
  obtain ⟨⟨-, -, -, -, c5, -⟩, ns, q, ns0, p, nse, t, -, -, h3, rfl⟩ := (makeConsistent_some d r hN).mp h
  obtain ⟨e1, e2, -, -, -, e6, e7, -, -, -, -, -, -, e14, e15, e16, -⟩ := prepare_path d
  have hne : d.term.rev.idx.isEmpty = false := by simpa using hr
  simp only [revSolverOk, e1, e2, e6, e7, e16, hne, Bool.and_false,
    Bool.false_or] at c5
  rw [e2, hne] at h3
  simp only [Bool.false_eq_true, if_false] at h3
  obtain ⟨a1, a2, rfl⟩ := (slacksRevTerm_iff _ _ _).mp h3
  obtain ⟨u1, u2⟩ := (revNs_iff _ _ _).mp a1
  obtain ⟨f1, f2, f3, f4, -, -⟩ := revFill_spec _ _ u2
  refine ⟨u1, (penOk_iff _ _).mp a2, f1, f2, f3, f4, ?_⟩
  simpa only [Bool.and_eq_true, Bool.or_eq_true, beq_iff_eq, Bool.not_eq_true'] using c5

/-- With a QP solver that cannot treat one-sided constraints, all bounds of an accepted description are finite.
Partial: the nonlinear constraints of the initial stage are not checked, `C99_infty_counterexample`. -/
theorem C99_two_sided_partial (d : Desc K) (r : Result K) (hN : d.N ≠ 0) (h : makeConsistent d = some r)
    (hq : d.qp ≠ .partialHpipm ∧ d.qp ≠ .fullHpipm ∧ d.qp ≠ .fullDaqp)
    (h0 : Finite d.init.h.l ∧ Finite d.init.h.u) (hp : Finite d.init.phi.l ∧ Finite d.init.phi.u) :
    d.TwoSided := by
  obtain ⟨⟨-, -, -, -, -, c6⟩, -⟩ := (makeConsistent_some d r hN).mp h
  obtain ⟨e1, e2, -, -, e5, e6, -, e8, -⟩ := prepare_path d
  rw [inftyOk_iff _ (by rw [e5]; exact hN), e1, e2, e6, e8] at c6
  rcases c6 with (c | c | c) | c
  · exact absurd c hq.1
  · exact absurd c hq.2.1
  · exact absurd c hq.2.2
  · exact ⟨c.1, h0, hp, c.2⟩

/-- the checks of a well-formed description that do not concern soft constraints -/
theorem checks_of (d : Desc K) (hN : d.N ≠ 0) (hi : d.init.WellFormed d.nx) (hp : d.path.WellFormed d.nx d.nu)
    (ht : d.term.WellFormed d.nx)
    (hs : d.TwoSided ∨ d.qp = .partialHpipm ∨ d.qp = .fullHpipm ∨ d.qp = .fullDaqp) :
    initOk (prepare d).nx (prepare d).init = true ∧ pathOk (prepare d).nx (prepare d).nu (prepare d).path = true ∧
    termOk (prepare d).nx (prepare d).term = true ∧ inftyOk (prepare d) = true := by
  obtain ⟨e1, e2, e3, e4, e5, e6, e7, e8, e9, e10, e11, e12, e13, e14, e15, e16, e17⟩ := prepare_path d
  obtain ⟨p1, p2, p3, p4, p5, p6⟩ := hp
  obtain ⟨t1, t2, t3, t4, t5⟩ := ht
  obtain ⟨i1, ⟨i2, i2'⟩, i3, i4, i5, i6⟩ := hi
  have hinit : initOk (prepare d).nx (prepare d).init = true := by
    rw [initOk_iff, e3, e8, e9, e10, e12, e13]
    have hb := (boxOk_iff _ _).mp (boxOk_of _ _ i1)
    by_cases hq : d.qp = .partialQpdunes
    · have hh : (prepare d).init.hasX0 = false ∧ (prepare d).init.idxbxe = [] := by
        unfold prepare; rw [if_pos hq]; exact ⟨rfl, rfl⟩
      rw [hh.1, hh.2]
      exact ⟨hb, by simp, by simp, fun i hi => absurd hi (by simp), i4, i6⟩
    · have hh : (prepare d).init.hasX0 = d.init.hasX0 ∧ (prepare d).init.idxbxe = d.init.idxbxe := by
        rw [prepare_id d hq]; exact ⟨rfl, rfl⟩
      rw [hh.1, hh.2]
      refine ⟨hb, fun h => (i3 h).1, ?_, fun i hi => (i2 i hi).2, i4, i6⟩
      intro h
      have := (i3 h).2
      unfold allEqArange
      dsimp only
      rw [if_pos (by rw [this]; simp)]
      simp [this]
  have hpath : pathOk (prepare d).nx (prepare d).nu (prepare d).path = true := by
    rw [pathOk_iff, e1, e3, e4]
    exact ⟨(boxOk_iff _ _).mp (boxOk_of _ _ p1), (boxOk_iff _ _).mp (boxOk_of _ _ p2), p3, p4, p6⟩
  have hterm : termOk (prepare d).nx (prepare d).term = true := by
    rw [termOk_iff, e2, e3]
    exact ⟨(boxOk_iff _ _).mp (boxOk_of _ _ t1), ⟨t2.1, t2.2.1⟩, t3, t5⟩
  have hinf : inftyOk (prepare d) = true := by
    rw [inftyOk_iff _ (by rw [e5]; exact hN), e1, e2, e6, e8]
    rcases hs with hs | hs
    · exact Or.inr ⟨hs.1, hs.2.2.2⟩
    · exact Or.inl hs
  exact ⟨hinit, hpath, hterm, hinf⟩

/-- A well-formed description with soft constraints by `idxs*` is accepted, with any QP solver if all
constraints are two-sided.  The numbers of slacks are those of the soft constraints. -/
theorem C99_accepts (d : Desc K) (hN : d.N ≠ 0) (hi : d.init.WellFormed d.nx) (hp : d.path.WellFormed d.nx d.nu)
    (ht : d.term.WellFormed d.nx) (si : d.init.SoftWellFormed d.path) (sp : d.path.SoftWellFormed)
    (st : d.term.SoftWellFormed)
    (hs : d.TwoSided ∨ d.qp = .partialHpipm ∨ d.qp = .fullHpipm ∨ d.qp = .fullDaqp) :
    ∃ r, makeConsistent d = some r ∧
      r.ns0 = d.path.sbu.idx.length + d.path.sg.idx.length + d.init.sphi.idx.length + d.init.sh.idx.length ∧
      r.ns = d.path.sbx.idx.length + d.path.sbu.idx.length + d.path.sh.idx.length + d.path.sg.idx.length
        + d.path.sphi.idx.length ∧
      r.nse = d.term.sbx.idx.length + d.term.sh.idx.length + d.term.sg.idx.length + d.term.sphi.idx.length := by
  obtain ⟨e1, e2, e3, e4, e5, e6, e7, e8, e9, e10, e11, e12, e13, e14, e15, e16, e17⟩ := prepare_path d
  obtain ⟨sp0, sp1, sp2, sp3, sp4, sp5, sp6⟩ := sp
  obtain ⟨st0, st1, st2, st3, st4, st5⟩ := st
  obtain ⟨si0, si1, si2, z, si3, si4⟩ := si
  have q1 := (slacksPath_iff d.path _ _).mpr
    ⟨⟨softOk_of _ _ sp1, softOk_of _ _ sp2, softOk_of _ _ sp4, softOk_of _ _ sp5, softOk_of _ _ sp3,
      (penOk_iff _ _).mpr sp6⟩, rfl, rfl⟩
  have q3 := (slacksTerm_iff d.term _ _).mpr
    ⟨⟨softOk_of _ _ st1, softOk_of _ _ st3, softOk_of _ _ st4, softOk_of _ _ st2,
      (penOk_iff _ _).mpr st5⟩, rfl, rfl⟩
  have q2 := (slacksInit_iff d.path.sbu.idx.length d.path.sg.idx.length (d.path.sbx.idx.length + d.path.sbu.idx.length
      + d.path.sh.idx.length + d.path.sg.idx.length + d.path.sphi.idx.length) d.path.pen (prepare d).init _ _).mpr
      ⟨⟨by rw [e10, e14]; exact softOk_of _ _ si1, by rw [e12, e15]; exact softOk_of _ _ si2⟩, rfl, z,
        by rw [e17, si3]; rfl, by rw [e14, e15]; exact (penOk_iff _ _).mpr si4, rfl⟩
  obtain ⟨hinit, hpath, hterm, hinf⟩ := checks_of d hN hi hp ht hs
  have hmix : mixOk (prepare d) = true := by simp [mixOk, e1, e16, sp0, si0]
  have hrev : revSolverOk (prepare d) = true := by simp [revSolverOk, e1, e2, e16, sp0, si0, st0]
  have hmain := (makeConsistent_some d _ hN).mpr ⟨⟨hinit, hpath, hterm, hmix, hrev, hinf⟩, _, _, _, _, _, _,
    (by rw [e1, sp0]; simp only [List.isEmpty_nil, if_true]; exact q1),
    (by rw [e16, e1, sp0, si0]; simp only [List.isEmpty_nil, if_true]; exact q2),
    (by rw [e2, st0]; simp only [List.isEmpty_nil, if_true]; exact q3), rfl⟩
  exact ⟨_, hmain, by dsimp only; rw [e14, e15], rfl, rfl⟩

/-- A well-formed description with soft constraints by `idxs_rev` in all stages is accepted with HPIPM. -/
theorem C99_accepts_rev (d : Desc K) (hN : d.N ≠ 0) (hi : d.init.WellFormed d.nx) (hp : d.path.WellFormed d.nx d.nu)
    (ht : d.term.WellFormed d.nx) (ns0 ns nse : Nat) (z : Pen K)
    (hq : d.qp = .partialHpipm ∨ d.qp = .fullHpipm) (hf : d.feasQp = false)
    (hr : d.path.rev.idx ≠ [] ∧ d.init.rev.idx ≠ [] ∧ d.term.rev.idx ≠ [])
    (hno : d.path.sbx.idx = [] ∧ d.path.sbu.idx = [] ∧ d.path.sg.idx = [] ∧ d.path.sh.idx = [] ∧
      d.path.sphi.idx = [] ∧ d.init.sh.idx = [] ∧ d.init.sphi.idx = [])
    (up : d.path.rev.Uses (d.path.bu.idx.length + d.path.bx.idx.length + d.path.nh + d.path.g.l.length
      + d.path.nphi) ns ∧ d.path.rev.Sized ns ∧ d.path.pen.Sized ns)
    (ui : d.init.rev.Uses (d.path.bu.idx.length + d.init.bx.idx.length + d.init.nh + d.path.g.l.length
      + d.init.nphi) ns0 ∧ d.init.rev.Sized ns0 ∧ d.init.pen = ⟨some z.zl, some z.zu, some z.Zl, some z.Zu⟩ ∧ z.Sized ns0)
    (ut : d.term.rev.Uses (d.term.bx.idx.length + d.term.nh + d.term.g.l.length + d.term.nphi) nse ∧
      d.term.rev.Sized nse ∧ d.term.pen.Sized nse) :
    ∃ r, makeConsistent d = some r ∧ r.ns0 = ns0 ∧ r.ns = ns ∧ r.nse = nse := by
  obtain ⟨hinit, hpath, hterm, hinf⟩ := checks_of d hN hi hp ht (by tauto)
  obtain ⟨e1, e2, e3, e4, e5, e6, e7, e8, e9, e10, e11, e12, e13, e14, e15, e16, e17⟩ := prepare_path d
  have n1 : d.path.rev.idx.isEmpty = false := by simpa using hr.1
  have n2 : d.init.rev.idx.isEmpty = false := by simpa using hr.2.1
  have n3 : d.term.rev.idx.isEmpty = false := by simpa using hr.2.2
  have q1 := (slacksRevPath_iff d.path ns _).mpr ⟨(revNs_iff _ _ _).mpr ⟨up.1, up.2.1⟩, (penOk_iff _ _).mpr up.2.2, rfl⟩
  have q3 := (slacksRevTerm_iff d.term nse _).mpr ⟨(revNs_iff _ _ _).mpr ⟨ut.1, ut.2.1⟩, (penOk_iff _ _).mpr ut.2.2, rfl⟩
  have q2 := (slacksRevInit_iff d.path (prepare d).init ns0 _).mpr
    ⟨by rw [e8, e10, e12, e16]; exact (revNs_iff _ _ _).mpr ⟨ui.1, ui.2.1⟩, z, by rw [e17]; exact ui.2.2.1,
      (penOk_iff _ _).mpr ui.2.2.2, rfl⟩
  have hmix : mixOk (prepare d) = true := by
    obtain ⟨o1, o2, o3, o4, o5, o6, o7⟩ := hno
    simp [mixOk, e1, e14, e15, e16, o1, o2, o3, o4, o5, o6, o7]
  have hrev : revSolverOk (prepare d) = true := by
    rcases hq with hq | hq <;> simp [revSolverOk, e6, e7, hq, hf]
  have hmain := (makeConsistent_some d _ hN).mpr ⟨⟨hinit, hpath, hterm, hmix, hrev, hinf⟩, _, _, _, _, _, _,
    (by rw [e1, n1]; simp only [Bool.false_eq_true, if_false]; exact q1),
    (by rw [e16, n2, e1]; simp only [Bool.false_eq_true, if_false]; exact q2),
    (by rw [e2, n3]; simp only [Bool.false_eq_true, if_false]; exact q3), rfl⟩
  exact ⟨_, hmain, rfl, rfl, rfl⟩

end

/-! ### examples -/

/-- no soft constraints -/
def noSoft : Soft ℚ := ⟨[], [], []⟩
/-- no `idxs_rev` -/
def noRev : Rev ℚ := ⟨[], [], []⟩
/-- no penalties -/
def noPen : Pen ℚ := ⟨[], [], [], []⟩

/-- a description with 2 states, 1 control, fixed initial state, a soft state bound, a soft control bound, a
general constraint and a nonlinear constraint -/
def ex : Desc ℚ where
  N := 5
  nx := 2
  nu := 1
  init := { bx := ⟨[0, 1], [1, 2], [1, 2]⟩, idxbxe := [0, 1], hasX0 := true, h := ⟨[], []⟩, nh := 0,
            phi := ⟨[], []⟩, nphi := 0, nr := 0, sh := noSoft, sphi := noSoft, rev := noRev,
            pen := ⟨some [3], some [3], some [4], some [4]⟩ }
  path := { bx := ⟨[1], [-1], [1]⟩, bu := ⟨[0], [-5], [5]⟩, g := ⟨[0], [1]⟩, C := ⟨1, 2⟩, D := ⟨1, 1⟩,
            h := ⟨[0], [2]⟩, nh := 1, phi := ⟨[], []⟩, nphi := 0, nr := 0, sbx := ⟨[0], [], []⟩,
            sbu := ⟨[0], [1], []⟩, sg := noSoft, sh := noSoft, sphi := noSoft, rev := noRev,
            pen := ⟨[1, 2], [1, 2], [3, 4], [3, 4]⟩ }
  term := { bx := ⟨[0], [-1], [1]⟩, g := ⟨[], []⟩, C := ⟨0, 0⟩, h := ⟨[], []⟩, nh := 0, phi := ⟨[], []⟩,
            nphi := 0, nr := 0, sbx := noSoft, sg := noSoft, sh := noSoft, sphi := noSoft, rev := noRev,
            pen := noPen }
  qp := .partialHpipm
  feasQp := false

/-- it is accepted, with 1, 2 and 0 slacks, and the bounds of slacks that were not given are zero -/
example : (makeConsistent ex).map (fun r => (r.ns0, r.ns, r.nse)) = some (1, 2, 0) ∧
    (makeConsistent ex).map (fun r => r.d.path.sbx) = some ⟨[0], [0], [0]⟩ ∧
    (makeConsistent ex).map (fun r => r.d.path.sbu) = some ⟨[0], [1], [0]⟩ := by decide +kernel

/-- it is well-formed -/
example : ex.path.WellFormed 2 1 ∧ ex.path.SoftWellFormed ∧ ex.init.WellFormed 2 ∧ ex.init.SoftWellFormed ex.path
    ∧ ex.term.WellFormed 2 ∧ ex.term.SoftWellFormed := by
  have hsoft : ∀ n, noSoft.WellFormed n := fun n => ⟨by simp [InRange, noSoft], by simp [noSoft],
    by simp [Soft.Sized, noSoft]⟩
  refine ⟨⟨⟨?_, ?_, ?_⟩, ⟨?_, ?_, ?_⟩, ⟨⟨rfl, rfl⟩, rfl, rfl, fun _ => ⟨rfl, rfl⟩⟩, ⟨rfl, rfl⟩, ⟨rfl, rfl⟩, ?_⟩,
    ⟨rfl, ⟨?_, ?_, ?_⟩, ⟨?_, ?_, ?_⟩, hsoft _, hsoft _, hsoft _, ⟨rfl, rfl, rfl, rfl⟩⟩,
    ⟨⟨?_, ?_, ?_⟩, ⟨?_, ?_⟩, fun _ => ⟨rfl, rfl⟩, ⟨rfl, rfl⟩, ⟨rfl, rfl⟩, ?_⟩,
    ⟨rfl, hsoft _, hsoft _, ⟨[3], [3], [4], [4]⟩, rfl, ⟨rfl, rfl, rfl, rfl⟩⟩,
    ⟨⟨?_, ?_, ?_⟩, ⟨⟨rfl, rfl⟩, rfl, ?_⟩, ⟨rfl, rfl⟩, ⟨rfl, rfl⟩, ?_⟩,
    ⟨rfl, hsoft _, hsoft _, hsoft _, hsoft _, ⟨rfl, rfl, rfl, rfl⟩⟩⟩ <;>
  simp [ex, InRange, Box.Sized, Soft.Sized]

/-- the same constraints softened by `idxs_rev`: one slack for both bounds -/
def exRev : Desc ℚ :=
  { ex with
    init := { ex.init with rev := ⟨[0, -1, -1, -1], [], []⟩ }
    path := { ex.path with sbx := noSoft, sbu := noSoft, rev := ⟨[0, 0, -1, 1], [], [7, 8]⟩ } }

example : (makeConsistent exRev).map (fun r => (r.ns0, r.ns, r.nse)) = some (1, 2, 0) ∧
    (makeConsistent exRev).map (fun r => r.d.path.rev) = some ⟨[0, 0, -1, 1], [0, 0], [7, 8]⟩ := by decide +kernel

/-- all stages by `idxs_rev` -/
example : (makeConsistent { exRev with term := { exRev.term with rev := ⟨[0], [], []⟩, pen := ⟨[1], [1], [1], [1]⟩ } }).map
    (fun r => (r.ns0, r.ns, r.nse)) = some (1, 2, 1) := by decide +kernel

/-- rejected: an index too large, bounds too few, a gap in the numbers of slacks, both formulations -/
example : makeConsistent { ex with path := { ex.path with bx := ⟨[2], [-1], [1]⟩ } } = none ∧
    makeConsistent { ex with path := { ex.path with bx := ⟨[1], [-1], []⟩ } } = none ∧
    makeConsistent { exRev with path := { exRev.path with rev := ⟨[0, 0, -1, 2], [], []⟩ } } = none ∧
    makeConsistent { exRev with path := { exRev.path with sbu := ⟨[0], [], []⟩ } } = none ∧
    makeConsistent { ex with qp := .fullQpoases, path := { ex.path with h := ⟨[0], [10 ^ 10]⟩ } } = none := by
  decide +kernel

/-- `ex` with a terminal state bound that has two slacks, and one that has none though two are given -/
def exTwice : Desc ℚ :=
  { ex with
    term := { ex.term with
      bx := ⟨[0, 1], [0, 0], [1, 1]⟩
      sbx := ⟨[1, 1], [], []⟩
      pen := ⟨[1, 1], [1, 1], [1, 1], [1, 1]⟩ } }

/-- `ex` with one soft nonlinear constraint at the initial stage and one soft state bound afterwards, penalties of
the initial stage not given -/
def exPen : Desc ℚ :=
  { ex with
    init := { ex.init with
      nh := 1
      h := ⟨[0], [1]⟩
      sh := ⟨[0], [], []⟩
      pen := ⟨none, none, none, none⟩ }
    path := { ex.path with
      sbu := noSoft
      pen := ⟨[77], [77], [78], [78]⟩ } }

/-- `ex` with one state, `x0` given, and `idxbxe_0` empty -/
def exX0 : Desc ℚ :=
  { ex with
    nx := 1
    init := { ex.init with
      bx := ⟨[0], [1], [1]⟩
      idxbxe := [] }
    path := { ex.path with
      bx := ⟨[0], [-1], [1]⟩
      C := ⟨1, 1⟩ } }

/-- **Counterexample** to "indices name components": negative and repeated indices are accepted. -/
theorem C99_index_counterexample :
    (∃ r, makeConsistent { ex with path := { ex.path with bx := ⟨[-1], [-1], [1]⟩ } } = some r) ∧
    (∃ r, makeConsistent { ex with path := { ex.path with bx := ⟨[0, 0], [0, 5], [1, 6]⟩ } } = some r) ∧
    (∃ r, makeConsistent exTwice = some r ∧ r.nse = 2) := by
  refine ⟨Option.isSome_iff_exists.mp (by decide +kernel), Option.isSome_iff_exists.mp (by decide +kernel), ?_⟩
  obtain ⟨r, h⟩ := Option.isSome_iff_exists.mp (show (makeConsistent exTwice).isSome = true by decide +kernel)
  exact ⟨r, h, (C99_soft_term _ r h rfl).1⟩

/-- **Counterexample** to "the matrix of terminal constraints has `nx` columns": it is not checked, whereas `C` of
the intermediate stages is. -/
theorem C99_columns_counterexample :
    (∃ r, makeConsistent { ex with term := { ex.term with g := ⟨[0], [1]⟩, C := ⟨1, 7⟩ } } = some r) ∧
    makeConsistent { ex with path := { ex.path with C := ⟨1, 7⟩ } } = none :=
  ⟨Option.isSome_iff_exists.mp (by decide +kernel), by decide +kernel⟩

/-- **Counterexample** to "each convex-over-nonlinear constraint has bounds": their number is not checked. -/
theorem C99_phi_counterexample :
    ∃ r, makeConsistent { ex with path := { ex.path with nphi := 3, nr := 1, phi := ⟨[1], []⟩ } } = some r :=
  Option.isSome_iff_exists.mp (by decide +kernel)

/-- **Counterexample** to "both formulations of soft constraints are not mixed": in the terminal stage the soft
constraints by `idxs*` are dropped beside those by `idxs_rev`; the state bound that was to be soft is hard. -/
theorem C99_mix_counterexample :
    ∃ r, makeConsistent { ex with term := { ex.term with sbx := ⟨[0], [], []⟩, rev := ⟨[-1], [], []⟩ } } = some r ∧
      r.nse = 0 :=
  ⟨⟨1, 2, 0, _⟩, rfl, rfl⟩

/-- **Counterexample** to "one-sided constraints are refused for solvers that cannot treat them": in the
nonlinear constraints of the initial stage they are not. -/
theorem C99_infty_counterexample :
    ∃ r, makeConsistent { ex with qp := .fullQpoases, init := { ex.init with nh := 1, h := ⟨[0], [10 ^ 10]⟩ } }
      = some r :=
  Option.isSome_iff_exists.mp (by decide +kernel)

/-- **Counterexample** to "penalties of the initial stage that are not given are refused or those of the same
constraints": the penalty of a state bound of the intermediate stages is used for a nonlinear constraint of the
initial stage, as the numbers of slacks happen to agree. -/
theorem C99_penalty_counterexample :
    ∃ r, makeConsistent exPen = some r ∧
      r.d.init.pen = ⟨some [77], some [77], some [78], some [78]⟩ := by
  obtain ⟨r, h⟩ := Option.isSome_iff_exists.mp (show (makeConsistent exPen).isSome = true by decide +kernel)
  obtain ⟨h0, ⟨z, h1, -, h2, -⟩, -⟩ := C99_soft_init _ r (by decide) h rfl rfl
  obtain ⟨-, rfl⟩ := h2 rfl (by rw [h0]; decide)
  exact ⟨r, h, h1⟩

/-- **Counterexample** to "`x0` fixes the initial state": with one state, `x0` given and `idxbxe_0` emptied the
comparison with `arange(1)` is that of an empty vector, and passes. -/
theorem C99_x0_counterexample :
    ∃ r, makeConsistent exX0 = some r ∧ exX0.init.hasX0 = true ∧ exX0.init.idxbxe = [] :=
  let ⟨r, h⟩ := Option.isSome_iff_exists.mp (show (makeConsistent exX0).isSome = true by decide +kernel)
  ⟨r, h, rfl, rfl⟩

/-- **Counterexample** to "DDP only supports initial state constraints": nonlinear constraints of the initial
stage and terminal state bounds pass the check. -/
theorem C99_ddp_counterexample :
    ∃ d : Desc ℚ, (∃ r, makeConsistent d = some r) ∧ ddpOk d = true ∧ d.init.nh = 1 ∧ d.term.bx.idx = [0] :=
  ⟨{ ex with
      init := { ex.init with nh := 1, h := ⟨[0], [1]⟩, pen := ⟨none, none, none, none⟩ }
      path := { ex.path with bx := ⟨[], [], []⟩, bu := ⟨[], [], []⟩, g := ⟨[], []⟩, C := ⟨0, 0⟩, D := ⟨0, 0⟩,
                             h := ⟨[], []⟩, nh := 0, sbx := noSoft, sbu := noSoft, pen := noPen } },
    Option.isSome_iff_exists.mp (by decide +kernel), by decide +kernel, rfl, rfl⟩

/-- With DDP there are no constraints in the intermediate stages, and no general or nonlinear terminal ones. -/
theorem C99_ddp_partial {K : Type} (d : Desc K) (h : ddpOk d = true) :
    d.path.bu.idx = [] ∧ d.path.bx.idx = [] ∧ d.path.g.l = [] ∧ d.path.nh = 0 ∧ d.path.nphi = 0 ∧
    d.term.g.l = [] ∧ d.term.nphi = 0 ∧ d.term.nh = 0 := by
  simp only [ddpOk, Bool.and_eq_true, beq_iff_eq, List.length_eq_zero_iff] at h
  tauto

end Acados.OcpDims
