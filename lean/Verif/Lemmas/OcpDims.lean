import Verif.Model.OcpDims
import Mathlib.Data.List.Perm.Subperm
import Mathlib.Data.List.Nodup
import Mathlib.Tactic.Linarith

namespace Acados.OcpDims

variable {K : Type}

theorem anyGe_false (idx : List Int) (n : Nat) : anyGe idx n = false ↔ Below idx n := by
  simp [anyGe, Below]

theorem boxOk_iff (n : Nat) (b : Box K) : boxOk n b = true ↔ b.Sized ∧ Below b.idx n := by
  simp only [boxOk, Bool.and_eq_true, Bool.not_eq_true', anyGe_false, Bool.or_eq_false_iff, bne_eq_false_iff_eq,
    Box.Sized]
  tauto

theorem rowsOk_iff (n : Nat) (r : Rows K) : rowsOk n r = true ↔ r.Sized n := by
  simp only [rowsOk, Bool.not_eq_true', Bool.or_eq_false_iff, bne_eq_false_iff_eq, Rows.Sized]
  tauto

theorem phiOk_iff (a b : Nat) : phiOk a b = true ↔ (0 < a → 0 < b) := by
  simp only [phiOk, Bool.or_eq_true, beq_iff_eq, bne_iff_ne]
  omega

theorem softOk_iff (n : Nat) (s : Soft K) :
    softOk n s = true ↔ s.idx.length ≤ n ∧ Below s.idx n ∧ s.Sized := by
  simp only [softOk, Bool.and_eq_true, Bool.not_eq_true', anyGe_false, decide_eq_false_iff_not, not_lt,
    Bool.or_eq_true, List.isEmpty_iff, beq_iff_eq, Soft.Sized, gt_iff_lt]
  tauto

theorem penOk_iff (n : Nat) (p : Pen K) : penOk n p = true ↔ p.Sized n := by
  simp only [penOk, Bool.and_eq_true, beq_iff_eq, Pen.Sized]
  tauto

theorem softFill_idx [Zero K] (s : Soft K) : (softFill s).idx = s.idx := rfl

/-- what the filled bounds of slacks are -/
theorem softFill_spec [Zero K] (s : Soft K) (h : s.Sized) :
    (softFill s).l.length = s.idx.length ∧ (softFill s).u.length = s.idx.length ∧
    (s.l ≠ [] → (softFill s).l = s.l) ∧ (s.u ≠ [] → (softFill s).u = s.u) ∧
    (s.l = [] → ∀ v ∈ (softFill s).l, v = 0) ∧ (s.u = [] → ∀ v ∈ (softFill s).u, v = 0) := by
  obtain ⟨h1, h2⟩ := h
  refine ⟨?_, ?_, ?_, ?_, ?_, ?_⟩
  · by_cases hl : s.l = []
    · simp [softFill, hl]
    · simpa [softFill, hl] using h1.resolve_left hl
  · by_cases hl : s.u = []
    · simp [softFill, hl]
    · simpa [softFill, hl] using h2.resolve_left hl
  · intro hl; simp [softFill, hl]
  · intro hl; simp [softFill, hl]
  · intro hl v hv
    simp only [softFill, hl, List.isEmpty_nil, if_true] at hv
    exact List.eq_of_mem_replicate hv
  · intro hl v hv
    simp only [softFill, hl, List.isEmpty_nil, if_true] at hv
    exact List.eq_of_mem_replicate hv

theorem revFill_spec [Zero K] (s : Rev K) (ns : Nat) (h : s.Sized ns) :
    (revFill ns s).l.length = ns ∧ (revFill ns s).u.length = ns ∧
    (s.l ≠ [] → (revFill ns s).l = s.l) ∧ (s.u ≠ [] → (revFill ns s).u = s.u) ∧
    (s.l = [] → ∀ v ∈ (revFill ns s).l, v = 0) ∧ (s.u = [] → ∀ v ∈ (revFill ns s).u, v = 0) := by
  obtain ⟨h1, h2⟩ := h
  refine ⟨?_, ?_, ?_, ?_, ?_, ?_⟩
  · by_cases hl : s.l = []
    · simp [revFill, hl]
    · simpa [revFill, hl] using h1.resolve_left hl
  · by_cases hl : s.u = []
    · simp [revFill, hl]
    · simpa [revFill, hl] using h2.resolve_left hl
  · intro hl; simp [revFill, hl]
  · intro hl; simp [revFill, hl]
  · intro hl v hv
    simp only [revFill, hl, List.isEmpty_nil, if_true] at hv
    exact List.eq_of_mem_replicate hv
  · intro hl v hv
    simp only [revFill, hl, List.isEmpty_nil, if_true] at hv
    exact List.eq_of_mem_replicate hv

/-- distinct indices among `n` are at most `n` -/
theorem nodup_length (idx : List Int) (n : Nat) (h1 : InRange idx n) (h2 : idx.Nodup) : idx.length ≤ n := by
  have hs : idx ⊆ (List.range n).map (fun i : Nat => (i : Int)) := by
    intro i hi
    obtain ⟨a, b⟩ := h1 i hi
    exact List.mem_map.mpr ⟨i.toNat, List.mem_range.mpr (by omega), by omega⟩
  have := (List.Nodup.subperm h2 hs).length_le
  simpa using this

theorem softOk_of (n : Nat) (s : Soft K) (h : s.WellFormed n) : softOk n s = true := by
  rw [softOk_iff]
  exact ⟨nodup_length _ _ h.1 h.2.1, fun i hi => (h.1 i hi).2, h.2.2⟩

theorem boxOk_of (n : Nat) (b : Box K) (h : b.WellFormed n) : boxOk n b = true := by
  rw [boxOk_iff]
  exact ⟨h.2.2, fun i hi => (h.1 i hi).2⟩

/-! ### `idxs_rev` -/

theorem maxSucc_ge (l : List Int) : ∀ i ∈ l, i + 1 ≤ maxSucc l := by
  match l with
  | [] => simp
  | [i] => simp [maxSucc]
  | i :: j :: l =>
      have := maxSucc_ge (j :: l)
      intro k hk
      simp only [maxSucc]
      rcases List.mem_cons.mp hk with rfl | hk
      · exact le_max_left _ _
      · exact (this k hk).trans (le_max_right _ _)

theorem maxSucc_mem (l : List Int) (h : l ≠ []) : ∃ i ∈ l, maxSucc l = i + 1 := by
  match l with
  | [i] => exact ⟨i, by simp, rfl⟩
  | i :: j :: l =>
      obtain ⟨k, hk, he⟩ := maxSucc_mem (j :: l) (by simp)
      simp only [maxSucc]
      rcases max_choice (i + 1) (maxSucc (j :: l)) with hm | hm
      · exact ⟨i, by simp, hm⟩
      · refine ⟨k, List.mem_cons_of_mem _ hk, ?_⟩
        rw [hm]; exact he

theorem uses_le (s : Rev K) (n ns : Nat) (h : s.Uses n ns) : ns ≤ n := by
  obtain ⟨h1, -, h3⟩ := h
  have hs : (List.range ns).map (fun i : Nat => (i : Int)) ⊆ s.idx := by
    intro i hi
    obtain ⟨j, hj, rfl⟩ := List.mem_map.mp hi
    exact h3 j (List.mem_range.mp hj)
  have hn : ((List.range ns).map (fun i : Nat => (i : Int))).Nodup :=
    List.Nodup.map (fun a b hab => by exact_mod_cast hab) List.nodup_range
  have := (List.Nodup.subperm hn hs).length_le
  simp only [List.length_map, List.length_range] at this
  omega

theorem nsRev_some (idx : List Int) (hidx : ∀ i ∈ idx, -1 ≤ i) (ns : Nat) :
    nsRev idx = some ns ↔ (∀ i ∈ idx, i = -1 ∨ (0 ≤ i ∧ i < ns)) ∧ ∀ j : Nat, j < ns → (j : Int) ∈ idx := by
  unfold nsRev
  by_cases h0 : idx = []
  · subst h0
    simp only [if_true, Option.some.injEq, List.not_mem_nil, false_imp_iff, implies_true, true_and]
    constructor
    · rintro rfl j hj; omega
    · intro h
      by_contra hn
      exact h 0 (by omega)
  · rw [if_neg h0]
    dsimp only
    obtain ⟨m, hm, he⟩ := maxSucc_mem idx h0
    have hge := maxSucc_ge idx
    have hm1 := hidx m hm
    have hall : ((List.range (maxSucc idx).toNat).all (fun i => idx.contains (i : Int)) = true) ↔
        ∀ j : Nat, j < (maxSucc idx).toNat → (j : Int) ∈ idx := by
      simp [List.all_eq_true]
    constructor
    · intro h
      split at h
      · rename_i hc
        rw [hall] at hc
        simp only [Option.some.injEq] at h
        rw [h] at hc
        refine ⟨?_, hc⟩
        intro i hi
        have a1 := hge i hi
        have a2 := hidx i hi
        by_cases hi1 : i = -1
        · exact Or.inl hi1
        · exact Or.inr ⟨by omega, by omega⟩
      · exact absurd h (by simp)
    · rintro ⟨h1, h2⟩
      have hns : (maxSucc idx).toNat = ns := by
        rcases Nat.eq_zero_or_pos ns with hz | hp
        · subst hz
          rcases h1 m hm with h | ⟨ha, hb⟩ <;> omega
        · have h3 := hge _ (h2 (ns - 1) (by omega))
          rcases h1 m hm with h | ⟨ha, hb⟩ <;> omega
      rw [hns] at hall
      rw [hns, if_pos (hall.mpr h2)]

theorem revNs_iff (n : Nat) (s : Rev K) (ns : Nat) : revNs n s = some ns ↔ s.Uses n ns ∧ s.Sized ns := by
  unfold revNs
  by_cases h1 : s.idx.length = n
  · have hb : (s.idx.length != n) = false := by simp [h1]
    rw [hb, if_neg (by simp)]
    by_cases h2 : ∀ i ∈ s.idx, -1 ≤ i ∧ i < (n : Int)
    · have hb2 : s.idx.any (fun i => !(decide (-1 ≤ i) && decide (i < (n : Int)))) = false := by
        rw [List.any_eq_false]
        intro i hi
        simp [h2 i hi]
      rw [hb2, if_neg (by simp)]
      have hns := nsRev_some s.idx (fun i hi => (h2 i hi).1)
      cases hc : nsRev s.idx with
      | none =>
          simp only [reduceCtorEq, false_iff]
          rintro ⟨⟨-, u1, u2⟩, -⟩
          have := (hns ns).mpr ⟨u1, u2⟩
          rw [hc] at this
          cases this
      | some m =>
          dsimp only
          have hm := (hns m).mp hc
          constructor
          · intro h
            split at h
            · rename_i hs
              simp only [Option.some.injEq] at h
              subst h
              simp only [Bool.and_eq_true, Bool.or_eq_true, List.isEmpty_iff, beq_iff_eq] at hs
              exact ⟨⟨h1, hm.1, hm.2⟩, hs⟩
            · exact absurd h (by simp)
          · rintro ⟨⟨-, u1, u2⟩, hs⟩
            have := (hns ns).mpr ⟨u1, u2⟩
            rw [hc] at this
            have he : m = ns := Option.some.inj this
            subst he
            rw [if_pos]
            simp only [Bool.and_eq_true, Bool.or_eq_true, List.isEmpty_iff, beq_iff_eq]
            exact hs
    · have hb2 : s.idx.any (fun i => !(decide (-1 ≤ i) && decide (i < (n : Int)))) = true := by
        rw [List.any_eq_true]
        push Not at h2
        obtain ⟨i, hi, hi2⟩ := h2
        refine ⟨i, hi, ?_⟩
        by_cases ha : -1 ≤ i
        · have := hi2 ha
          simp [this]
        · simp [ha]
      rw [hb2, if_pos rfl]
      simp only [reduceCtorEq, false_iff]
      rintro ⟨hu, -⟩
      apply h2
      have hle := uses_le s n ns hu
      intro i hi
      rcases hu.2.1 i hi with rfl | ⟨a, b⟩
      · exact ⟨le_rfl, by omega⟩
      · exact ⟨by omega, by omega⟩
  · have hb : (s.idx.length != n) = true := by simp [h1]
    rw [hb, if_pos rfl]
    simp only [reduceCtorEq, false_iff]
    rintro ⟨hu, -⟩
    exact h1 hu.1

/-! ### slacks by stage -/

theorem slacksPath_iff [Zero K] (p : Path K) (ns : Nat) (q : Path K) :
    slacksPath p = some (ns, q) ↔
      (softOk p.bx.idx.length p.sbx = true ∧ softOk p.bu.idx.length p.sbu = true ∧ softOk p.nh p.sh = true ∧
        softOk p.nphi p.sphi = true ∧ softOk p.g.l.length p.sg = true ∧ penOk ns p.pen = true) ∧
      ns = p.sbx.idx.length + p.sbu.idx.length + p.sh.idx.length + p.sg.idx.length + p.sphi.idx.length ∧
      q = { p with sbx := softFill p.sbx, sbu := softFill p.sbu, sh := softFill p.sh,
                   sphi := softFill p.sphi, sg := softFill p.sg } := by
  unfold slacksPath
  dsimp only
  constructor
  · intro h
    split at h
    · rename_i hc
      simp only [Option.some.injEq, Prod.mk.injEq] at h
      obtain ⟨rfl, rfl⟩ := h
      simp only [Bool.and_eq_true] at hc
      exact ⟨⟨hc.1.1.1.1.1, hc.1.1.1.1.2, hc.1.1.1.2, hc.1.1.2, hc.1.2, hc.2⟩, rfl, rfl⟩
    · exact absurd h (by simp)
  · rintro ⟨⟨h1, h2, h3, h4, h5, h6⟩, rfl, rfl⟩
    rw [if_pos (by simp only [h1, h2, h3, h4, h5, h6, Bool.and_self])]

theorem slacksTerm_iff [Zero K] (p : Term K) (ns : Nat) (q : Term K) :
    slacksTerm p = some (ns, q) ↔
      (softOk p.bx.idx.length p.sbx = true ∧ softOk p.nh p.sh = true ∧
        softOk p.nphi p.sphi = true ∧ softOk p.g.l.length p.sg = true ∧ penOk ns p.pen = true) ∧
      ns = p.sbx.idx.length + p.sh.idx.length + p.sg.idx.length + p.sphi.idx.length ∧
      q = { p with sbx := softFill p.sbx, sh := softFill p.sh, sphi := softFill p.sphi, sg := softFill p.sg } := by
  unfold slacksTerm
  dsimp only
  constructor
  · intro h
    split at h
    · rename_i hc
      simp only [Option.some.injEq, Prod.mk.injEq] at h
      obtain ⟨rfl, rfl⟩ := h
      simp only [Bool.and_eq_true] at hc
      exact ⟨⟨hc.1.1.1.1, hc.1.1.1.2, hc.1.1.2, hc.1.2, hc.2⟩, rfl, rfl⟩
    · exact absurd h (by simp)
  · rintro ⟨⟨h1, h3, h4, h5, h6⟩, rfl, rfl⟩
    rw [if_pos (by simp only [h1, h3, h4, h5, h6, Bool.and_self])]

theorem slacksInit_iff [Zero K] (nsbu nsg ns : Nat) (pen : Pen K) (p : Init K) (ns0 : Nat) (q : Init K) :
    slacksInit nsbu nsg ns pen p = some (ns0, q) ↔
      (softOk p.nh p.sh = true ∧ softOk p.nphi p.sphi = true) ∧
      ns0 = nsbu + nsg + p.sphi.idx.length + p.sh.idx.length ∧
      ∃ z, initPen ns0 ns p.pen pen = some z ∧ penOk ns0 z = true ∧
        q = { p with sh := softFill p.sh, sphi := softFill p.sphi,
                     pen := ⟨some z.zl, some z.zu, some z.Zl, some z.Zu⟩ } := by
  unfold slacksInit
  dsimp only
  constructor
  · intro h
    split at h
    · rename_i hc
      simp only [Bool.and_eq_true] at hc
      cases hz : initPen (nsbu + nsg + p.sphi.idx.length + p.sh.idx.length) ns p.pen pen with
      | none => rw [hz] at h; cases h
      | some z =>
          rw [hz] at h
          dsimp only at h
          split at h
          · rename_i hp
            simp only [Option.some.injEq, Prod.mk.injEq] at h
            obtain ⟨rfl, rfl⟩ := h
            exact ⟨hc, rfl, z, hz, hp, rfl⟩
          · exact absurd h (by simp)
    · exact absurd h (by simp)
  · rintro ⟨⟨h1, h2⟩, rfl, z, h3, h4, rfl⟩
    rw [if_pos (by simp only [h1, h2, Bool.and_self]), h3]
    dsimp only
    rw [if_pos h4]

theorem slacksRevPath_iff [Zero K] (p : Path K) (ns : Nat) (q : Path K) :
    slacksRevPath p = some (ns, q) ↔
      revNs (p.bu.idx.length + p.bx.idx.length + p.nh + p.g.l.length + p.nphi) p.rev = some ns ∧
      penOk ns p.pen = true ∧ q = { p with rev := revFill ns p.rev } := by
  unfold slacksRevPath
  cases hz : revNs (p.bu.idx.length + p.bx.idx.length + p.nh + p.g.l.length + p.nphi) p.rev with
  | none => simp
  | some m =>
      dsimp only
      constructor
      · intro h
        split at h
        · rename_i hp
          simp only [Option.some.injEq, Prod.mk.injEq] at h
          obtain ⟨rfl, rfl⟩ := h
          exact ⟨rfl, hp, rfl⟩
        · exact absurd h (by simp)
      · rintro ⟨h1, h2, rfl⟩
        have := Option.some.inj h1
        subst this
        rw [if_pos h2]

theorem slacksRevTerm_iff [Zero K] (p : Term K) (ns : Nat) (q : Term K) :
    slacksRevTerm p = some (ns, q) ↔
      revNs (p.bx.idx.length + p.nh + p.g.l.length + p.nphi) p.rev = some ns ∧
      penOk ns p.pen = true ∧ q = { p with rev := revFill ns p.rev } := by
  unfold slacksRevTerm
  cases hz : revNs (p.bx.idx.length + p.nh + p.g.l.length + p.nphi) p.rev with
  | none => simp
  | some m =>
      dsimp only
      constructor
      · intro h
        split at h
        · rename_i hp
          simp only [Option.some.injEq, Prod.mk.injEq] at h
          obtain ⟨rfl, rfl⟩ := h
          exact ⟨rfl, hp, rfl⟩
        · exact absurd h (by simp)
      · rintro ⟨h1, h2, rfl⟩
        have := Option.some.inj h1
        subst this
        rw [if_pos h2]

theorem slacksRevInit_iff [Zero K] (q : Path K) (p : Init K) (ns : Nat) (r : Init K) :
    slacksRevInit q p = some (ns, r) ↔
      revNs (q.bu.idx.length + p.bx.idx.length + p.nh + q.g.l.length + p.nphi) p.rev = some ns ∧
      ∃ z : Pen K, p.pen = ⟨some z.zl, some z.zu, some z.Zl, some z.Zu⟩ ∧ penOk ns z = true ∧
        r = { p with rev := revFill ns p.rev } := by
  unfold slacksRevInit
  generalize hz : revNs (q.bu.idx.length + p.bx.idx.length + p.nh + q.g.l.length + p.nphi) p.rev = m
  generalize hp : p.pen = pen
  constructor
  · intro h
    split at h
    · rename_i m' a b c d
      split at h
      · rename_i hok
        simp only [Option.some.injEq, Prod.mk.injEq] at h
        obtain ⟨rfl, rfl⟩ := h
        exact ⟨rfl, ⟨a, b, c, d⟩, rfl, hok, by rw [← hp]⟩
      · exact absurd h (by simp)
    · exact absurd h (by simp)
  · rintro ⟨rfl, z, rfl, h2, rfl⟩
    dsimp only
    rw [if_pos h2, ← hp]

section
variable [Field K] [LinearOrder K]

/-- the parts of an accepted description, `N_horizon > 0` -/
theorem makeConsistent_some (d : Desc K) (r : Result K) (hN : d.N ≠ 0) :
    makeConsistent d = some r ↔
      (initOk (prepare d).nx (prepare d).init = true ∧ pathOk (prepare d).nx (prepare d).nu (prepare d).path = true
        ∧ termOk (prepare d).nx (prepare d).term = true ∧ mixOk (prepare d) = true ∧
        revSolverOk (prepare d) = true ∧ inftyOk (prepare d) = true) ∧
      ∃ ns q ns0 p nse t,
        (if (prepare d).path.rev.idx.isEmpty then slacksPath (prepare d).path else slacksRevPath (prepare d).path)
          = some (ns, q) ∧
        (if (prepare d).init.rev.idx.isEmpty then
          slacksInit (if (prepare d).path.rev.idx.isEmpty then (prepare d).path.sbu.idx.length else 0)
            (if (prepare d).path.rev.idx.isEmpty then (prepare d).path.sg.idx.length else 0) ns
            (prepare d).path.pen (prepare d).init
          else slacksRevInit (prepare d).path (prepare d).init) = some (ns0, p) ∧
        (if (prepare d).term.rev.idx.isEmpty then slacksTerm (prepare d).term else slacksRevTerm (prepare d).term)
          = some (nse, t) ∧
        r = ⟨ns0, ns, nse, { prepare d with init := p, path := q, term := t }⟩ := by
  have hN' : (prepare d).N ≠ 0 := by
    unfold prepare; split <;> exact hN
  unfold makeConsistent
  dsimp only
  generalize prepare d = e at *
  rw [if_neg hN']
  by_cases hc : (initOk e.nx e.init && pathOk e.nx e.nu e.path && termOk e.nx e.term && mixOk e && revSolverOk e
      && inftyOk e) = true
  · rw [if_pos hc]
    simp only [Bool.and_eq_true] at hc
    obtain ⟨⟨⟨⟨⟨c1, c2⟩, c3⟩, c4⟩, c5⟩, c6⟩ := hc
    simp only [c1, c2, c3, c4, c5, c6, true_and]
    generalize (if e.path.rev.idx.isEmpty then slacksPath e.path else slacksRevPath e.path) = A
    cases A with
    | none => simp
    | some a =>
        obtain ⟨ns, q⟩ := a
        dsimp only
        generalize hB : (if e.init.rev.idx.isEmpty then
          slacksInit (if e.path.rev.idx.isEmpty then e.path.sbu.idx.length else 0)
            (if e.path.rev.idx.isEmpty then e.path.sg.idx.length else 0) ns e.path.pen e.init
          else slacksRevInit e.path e.init) = B
        cases B with
        | none =>
            simp only [reduceCtorEq, false_iff]
            rintro ⟨ns', q', ns0, p, nse, t, h1, h2, -⟩
            simp only [Option.some.injEq, Prod.mk.injEq] at h1
            obtain ⟨rfl, rfl⟩ := h1
            rw [hB] at h2
            cases h2
        | some b =>
            obtain ⟨ns0, p⟩ := b
            dsimp only
            generalize (if e.term.rev.idx.isEmpty then slacksTerm e.term else slacksRevTerm e.term) = C
            cases C with
            | none => simp
            | some c =>
                obtain ⟨nse, t⟩ := c
                dsimp only
                constructor
                · intro h
                  exact ⟨ns, q, ns0, p, nse, t, rfl, hB, rfl, (Option.some.inj h).symm⟩
                · rintro ⟨ns', q', ns0', p', nse', t', h1, h2, h3, rfl⟩
                  simp only [Option.some.injEq, Prod.mk.injEq] at h1 h3
                  obtain ⟨rfl, rfl⟩ := h1
                  obtain ⟨rfl, rfl⟩ := h3
                  rw [hB] at h2
                  simp only [Option.some.injEq, Prod.mk.injEq] at h2
                  obtain ⟨rfl, rfl⟩ := h2
                  rfl
  · rw [if_neg hc]
    simp only [reduceCtorEq, false_iff]
    rintro ⟨⟨c1, c2, c3, c4, c5, c6⟩, -⟩
    apply hc
    simp only [c1, c2, c3, c4, c5, c6, Bool.and_self]

omit [Field K] [LinearOrder K] in
theorem initOk_iff (nx : Nat) (p : Init K) : initOk nx p = true ↔
    (p.bx.Sized ∧ Below p.bx.idx nx) ∧ (p.hasX0 = true → p.bx.idx.length = nx) ∧
    (p.hasX0 = true → allEqArange p.idxbxe nx = some true) ∧ Below p.idxbxe p.bx.idx.length ∧
    p.h.Sized p.nh ∧ (0 < p.nphi → 0 < p.nr) := by
  simp only [initOk, Bool.and_eq_true, boxOk_iff, rowsOk_iff, phiOk_iff, Bool.not_eq_true', anyGe_false,
    Bool.or_eq_true, beq_iff_eq]
  cases p.hasX0 <;> simp <;> tauto

omit [Field K] [LinearOrder K] in
theorem pathOk_iff (nx nu : Nat) (p : Path K) : pathOk nx nu p = true ↔
    (p.bx.Sized ∧ Below p.bx.idx nx) ∧ (p.bu.Sized ∧ Below p.bu.idx nu) ∧
    (p.g.Sized p.g.l.length ∧ p.C.rows = p.g.l.length ∧ p.D.rows = p.g.l.length ∧
      (0 < p.g.l.length → p.C.cols = nx ∧ p.D.cols = nu)) ∧
    p.h.Sized p.nh ∧ (0 < p.nphi → 0 < p.nr) := by
  simp only [pathOk, Bool.and_eq_true, boxOk_iff, rowsOk_iff, phiOk_iff, Bool.not_eq_true',
    Bool.or_eq_false_iff, bne_eq_false_iff_eq, Bool.and_eq_false_iff, decide_eq_false_iff_not, gt_iff_lt]
  simp only [Rows.Sized]
  tauto

omit [Field K] [LinearOrder K] in
theorem termOk_iff (nx : Nat) (p : Term K) : termOk nx p = true ↔
    (p.bx.Sized ∧ Below p.bx.idx nx) ∧
    (p.g.Sized p.g.l.length ∧ p.C.rows = p.g.l.length) ∧ p.h.Sized p.nh ∧ (0 < p.nphi → 0 < p.nr) := by
  simp only [termOk, Bool.and_eq_true, boxOk_iff, rowsOk_iff, phiOk_iff, Bool.not_eq_true',
    Bool.or_eq_false_iff, bne_eq_false_iff_eq]
  simp only [Rows.Sized]
  tauto

theorem finOk_iff (l : List K) : finOk l = true ↔ Finite l := by
  simp only [finOk, Bool.not_eq_true', Bool.or_eq_false_iff, List.any_eq_false, decide_eq_true_eq, not_le,
    ge_iff_le, Finite]
  exact ⟨fun h v hv => ⟨h.2 v hv, h.1 v hv⟩, fun h => ⟨fun v hv => (h v hv).2, fun v hv => (h v hv).1⟩⟩

theorem inftyOk_iff (d : Desc K) (hN : d.N ≠ 0) : inftyOk d = true ↔
    (d.qp = .partialHpipm ∨ d.qp = .fullHpipm ∨ d.qp = .fullDaqp) ∨
    ((Finite d.init.bx.l ∧ Finite d.init.bx.u) ∧
      (Finite d.path.bx.l ∧ Finite d.path.bx.u) ∧ (Finite d.path.bu.l ∧ Finite d.path.bu.u) ∧
      (Finite d.path.g.l ∧ Finite d.path.g.u) ∧ (Finite d.path.h.l ∧ Finite d.path.h.u) ∧
      (Finite d.path.phi.l ∧ Finite d.path.phi.u) ∧
      (Finite d.term.bx.l ∧ Finite d.term.bx.u) ∧ (Finite d.term.g.l ∧ Finite d.term.g.u) ∧
      (Finite d.term.h.l ∧ Finite d.term.h.u) ∧ (Finite d.term.phi.l ∧ Finite d.term.phi.u)) := by
  have hN' : d.N > 0 := Nat.pos_of_ne_zero hN
  simp only [inftyOk, hN', if_true, Bool.or_eq_true, beq_iff_eq, List.all_cons, List.all_nil, Bool.and_true,
    Bool.and_eq_true, finOk_iff]
  tauto

end

end Acados.OcpDims
