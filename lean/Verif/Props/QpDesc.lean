import Verif.Model.QpDesc
import Mathlib.Tactic.Ring
import Mathlib.Data.List.Nodup
import Mathlib.Data.List.Perm.Subperm
import Mathlib.Tactic.NormNum
import Mathlib.Algebra.Order.Field.Rat

/-!
C105: a QP description that is accepted is the QP the solver receives.
-/

namespace Acados.QpDesc

open QpDump (F Mat Qp Dims dimsOf stageOk store empty)

section
variable {K : Type} [Field K] [LinearOrder K]

theorem makeConsistent_some {s : Desc K} {q : Qp K} (h : makeConsistent s = some q) :
    q = fill s ∧ ∀ k ≤ s.N, stageOk (fill s) k = true := by
  unfold makeConsistent at h
  split at h
  · rename_i ha
    refine ⟨(Option.some.inj h).symm, fun k hk => ?_⟩
    exact List.all_eq_true.1 ha k (List.mem_range.2 (by omega))
  · cases h

omit [Field K] [LinearOrder K] in
/-- Memory of an array of the documented shape. -/
theorem received_of_shape (a : Mat K) (rows cols : ℕ) (h : Shape a.rows a.cols rows cols) :
    Received a.e rows cols (flat a) := by
  intro i hi j hj
  have hne : rows * cols ≠ 0 := Nat.mul_ne_zero (by omega) (by omega)
  obtain ⟨hr, hc⟩ := h hne
  have hlt : j * rows + i < rows * cols := by
    calc j * rows + i < j * rows + rows := by omega
      _ = rows * (j + 1) := by ring
      _ ≤ rows * cols := Nat.mul_le_mul_left _ hj
  unfold flat
  rw [hr, hc, if_pos hlt]
  have h1 : (j * rows + i) % rows = i := by
    rw [Nat.mul_comm, Nat.mul_add_mod, Nat.mod_eq_of_lt hi]
  have h2 : (j * rows + i) / rows = j := by
    rw [Nat.mul_comm, Nat.mul_add_div (by omega), Nat.div_eq_of_lt hi, Nat.add_zero]
  rw [h1, h2]

omit [LinearOrder K] in
theorem vec_cols (s : Desc K) (f : F) (k : ℕ) (hf : f.isMat = false) :
    ((fill s).get f k).cols = 1 := by
  simp [fill, store, hf]

/-- **C105.** If a description is accepted, the arrays of all fields that are checked have the
documented shape, and the solver receives their entries. -/
theorem C105_received_partial (s : Desc K) (q : Qp K) (h : makeConsistent s = some q)
    (f : F) (k : ℕ) (hk : (dimsOf q).has f k) (hf : Checked q.N k f) :
    Shape (q.get f k).rows (q.get f k).cols ((dimsOf q).rows f k) ((dimsOf q).cols f k) ∧
    Received (q.get f k).e ((dimsOf q).rows f k) ((dimsOf q).cols f k) (flat (q.get f k)) := by
  obtain ⟨rfl, hs⟩ := makeConsistent_some h
  refine (fun hh => ⟨hh, received_of_shape _ _ _ hh⟩) ?_
  have hkN : k ≤ s.N := hk.1
  have h1 := hs k hkN
  have hc := vec_cols s f k
  have hb : f = .b → (dimsOf (fill s)).nx (k + 1) = ((fill s).get .A k).rows := by
    rintro rfl
    have hlt : k + 1 < (fill s).N := hf
    have h2 := hs (k + 1) (le_of_lt hlt)
    simp only [stageOk, Bool.and_eq_true, Bool.or_eq_true, beq_iff_eq, decide_eq_true_eq,
      Nat.add_sub_cancel] at h2
    omega
  have hN : (fill s).N = s.N := rfl
  simp only [stageOk, Bool.and_eq_true, Bool.or_eq_true, beq_iff_eq, decide_eq_true_eq] at h1
  intro hne
  by_cases hfb : f = .b
  · have hb2 := hb hfb
    subst hfb
    have hlt : k + 1 < (fill s).N := hf
    simp only [Dims.rows, Dims.cols]
    exact ⟨by omega, hc rfl⟩
  cases f <;> simp only [Dims.rows, Dims.cols, Checked, hN, F.isMat] at * <;>
    first
    | exact absurd trivial hfb
    | exact absurd hf id
    | (refine ⟨?_, ?_⟩ <;> first
        | assumption
        | rfl
        | (simp only [dimsOf] at *; omega)
        | (simp only [dimsOf] at *
           simp only [Nat.mul_eq_zero, not_or, ne_eq] at hne
           omega))

/-- **C105.** Conversely, a description whose arrays have the documented shapes, with equalities on
bounds on states only, is accepted. -/
theorem C105_accepts (s : Desc K)
    (hs : ∀ f k, (dimsOf (fill s)).has f k → f ≠ .idxs →
      ((fill s).get f k).rows = (dimsOf (fill s)).rows f k ∧
      ((fill s).get f k).cols = (dimsOf (fill s)).cols f k)
    (he : QpDump.EqOnX (dimsOf (fill s)) (fun f k => ((fill s).get f k).e)) :
    makeConsistent s = some (fill s) := by
  unfold makeConsistent
  rw [if_pos]
  rw [List.all_eq_true]
  intro k hk
  have hkN : k ≤ s.N := by have := List.mem_range.1 hk; omega
  have g : ∀ f, f.isDyn = false → f ≠ .idxs →
      ((fill s).get f k).rows = (dimsOf (fill s)).rows f k ∧
      ((fill s).get f k).cols = (dimsOf (fill s)).cols f k :=
    fun f hf hi => hs f k ⟨hkN, fun h => by rw [hf] at h; cases h⟩ hi
  have gd : ∀ f j, j < s.N → f ≠ .idxs →
      ((fill s).get f j).rows = (dimsOf (fill s)).rows f j :=
    fun f j hj hi => (hs f j ⟨le_of_lt hj, fun _ => hj⟩ hi).1
  have hN : (fill s).N = s.N := rfl
  have hb := fun hj => gd .B k hj (by decide)
  have hb' := fun hj => gd .b k hj (by decide)
  have ha := fun hj => gd .A k hj (by decide)
  have ha' := fun hj => gd .A (k - 1) hj (by decide)
  have e := he k hkN
  have f1 := g .q rfl (by decide)
  have f2 := g .r rfl (by decide)
  have f3 := g .S rfl (by decide)
  have f4 := g .idxb rfl (by decide)
  have f5 := g .C rfl (by decide)
  have f6 := g .D rfl (by decide)
  have f7 := g .idxsRev rfl (by decide)
  have f8 := g .zl rfl (by decide)
  have f9 := g .zu rfl (by decide)
  have f10 := g .Zl rfl (by decide)
  have f11 := g .Zu rfl (by decide)
  have f12 := g .lbuM rfl (by decide)
  have f13 := g .ubuM rfl (by decide)
  have f14 := g .lbxM rfl (by decide)
  have f15 := g .ubxM rfl (by decide)
  have f16 := g .lgM rfl (by decide)
  have f17 := g .ugM rfl (by decide)
  have f18 := g .llsM rfl (by decide)
  have f19 := g .lusM rfl (by decide)
  simp only [Dims.rows, Dims.cols] at *
  have hdyn : s.N ≤ k ∨ ((k = 0 ∨ (dimsOf (fill s)).nx k = ((fill s).get .A (k - 1)).rows) ∧
      ((fill s).get .B k).rows = ((fill s).get .A k).rows) ∧
      ((fill s).get .b k).rows = ((fill s).get .A k).rows := by
    rcases Nat.lt_or_ge k s.N with hlt | hge
    · refine Or.inr ⟨⟨?_, by rw [hb hlt, ha hlt]⟩, by rw [hb' hlt, ha hlt]⟩
      rcases Nat.eq_zero_or_pos k with h0 | h0
      · exact Or.inl h0
      · refine Or.inr ?_
        rw [ha' (by omega), Nat.sub_add_cancel h0]
    · exact Or.inl hge
  simp only [stageOk, Bool.and_eq_true, Bool.or_eq_true, beq_iff_eq, decide_eq_true_eq, hN,
    List.all_eq_true, List.mem_range]
  rw [Nat.add_comm] at e
  refine ⟨⟨⟨⟨⟨⟨⟨⟨⟨⟨⟨⟨⟨⟨⟨⟨⟨⟨⟨⟨⟨f1.1, f2.1⟩, Or.inr f3⟩, hdyn⟩, ?_⟩, f5.1⟩, Or.inr f6.1⟩,
    Or.inr ⟨f5.2, Or.inr f6.2⟩⟩, ?_⟩, f8.1⟩, f9.1⟩, f10.1⟩, f11.1⟩, f12.1⟩, f13.1⟩, f14.1⟩,
    f15.1⟩, f16.1⟩, f17.1⟩, f18.1⟩, f19.1⟩, Or.inr e⟩
  · rw [f4.1, Nat.add_comm]
  · rw [f7.1, Nat.add_comm ((dimsOf (fill s)).nbu k)]

/-- **C105.** Masks have no default: a description with bounds on states and no mask for them is
refused. The documentation states that masks have default values 1.0. -/
theorem C105_masks_required (s : Desc K) (k : ℕ) (hk : k ≤ s.N)
    (hm : s.arr .lbxM k = none) (hb : 0 < ((fill s).get .lbx k).rows) :
    makeConsistent s = none := by
  rcases h : makeConsistent s with _ | q
  · rfl
  · exfalso
    have h1 := (makeConsistent_some h).2 k hk
    simp only [stageOk, Bool.and_eq_true, beq_iff_eq] at h1
    have h2 : ((fill s).get .lbxM k).rows = (dimsOf (fill s)).nbx k := by omega
    have h3 : ((fill s).get .lbxM k).rows = 0 := by simp [fill, hm, store, F.isMat, empty]
    have h4 : (dimsOf (fill s)).nbx k = ((fill s).get .lbx k).rows := rfl
    omega

/-- **C105.** Slack indices have no default: a description with constraints and without `idxs_rev`
is refused, even if it has no slacks. -/
theorem C105_idxs_rev_required (s : Desc K) (k : ℕ) (hk : k ≤ s.N)
    (hm : s.arr .idxsRev k = none)
    (hb : 0 < ((fill s).get .lbx k).rows + ((fill s).get .lbu k).rows
      + ((fill s).get .lg k).rows) :
    makeConsistent s = none := by
  rcases h : makeConsistent s with _ | q
  · rfl
  · exfalso
    have h1 := (makeConsistent_some h).2 k hk
    simp only [stageOk, Bool.and_eq_true, beq_iff_eq] at h1
    have h2 : ((fill s).get .idxsRev k).rows = (dimsOf (fill s)).nbx k + (dimsOf (fill s)).nbu k
      + (dimsOf (fill s)).ng k := by omega
    have h3 : ((fill s).get .idxsRev k).rows = 0 := by simp [fill, hm, store, F.isMat, empty]
    simp only [dimsOf] at h2
    omega

theorem create_some {s : Desc K} {sol : Solver} {q : Qp K} (h : create s (some sol) = some q) :
    makeConsistent s = some q ∧ (¬ UsesIdxsRev sol → hasIdxsRevNotIdxs q = false) ∧
    (sol = .partQpdunes → hasSlacks q = false) ∧ (¬ UsesMasks sol → hasMasks q = false) := by
  unfold create at h
  simp only at h
  split at h
  · cases h
  · rename_i q' hq
    split at h
    · cases h
    · rename_i h1
      split at h
      · cases h
      · rename_i h2
        split at h
        · cases h
        · rename_i h3
          obtain rfl := Option.some.inj h
          refine ⟨hq, fun hn => ?_, fun hn => ?_, fun hn => ?_⟩ <;>
            cases sol <;> simp_all [UsesMasks, UsesIdxsRev]

/-- **C105.** The solver is created exactly if the description is accepted and the solver supports
what it contains. -/
theorem C105_create (s : Desc K) (sol : Solver) (q : Qp K) :
    create s (some sol) = some q ↔
      makeConsistent s = some q ∧ (¬ UsesIdxsRev sol → hasIdxsRevNotIdxs q = false) ∧
      (sol = .partQpdunes → hasSlacks q = false) ∧ (¬ UsesMasks sol → hasMasks q = false) := by
  refine ⟨create_some, fun ⟨h1, h2, h3, h4⟩ => ?_⟩
  unfold create
  simp only [h1]
  cases sol <;> simp_all [UsesMasks, UsesIdxsRev]

/-- **C105.** A solver that does not use masks gets no constraint that is switched off. -/
theorem C105_masks (s : Desc K) (sol : Solver) (q : Qp K) (h : create s (some sol) = some q)
    (hs : ¬ UsesMasks sol) (f : F) (hf : f ∈ [F.lbuM, .ubuM, .lbxM, .ubxM, .lgM, .ugM, .llsM, .lusM])
    (k : ℕ) (hk : k ≤ q.N) (i : ℕ) (hi : i < (dimsOf q).rows f k) :
    (q.get f k).e i 0 ≠ 0 := by
  obtain ⟨h1, -, -, h4⟩ := create_some h
  have hm := h4 hs
  have hrow : (q.get f k).rows = (dimsOf q).rows f k := by
    obtain ⟨rfl, hst⟩ := makeConsistent_some h1
    have h1 := hst k hk
    simp only [stageOk, Bool.and_eq_true, beq_iff_eq] at h1
    simp only [List.mem_cons, List.not_mem_nil, or_false] at hf
    rcases hf with rfl | rfl | rfl | rfl | rfl | rfl | rfl | rfl <;> simp only [Dims.rows] <;> omega
  intro h0
  have : hasMasks q = true := by
    unfold hasMasks
    refine List.any_eq_true.2 ⟨f, hf, List.any_eq_true.2 ⟨k, List.mem_range.2 (by omega),
      List.any_eq_true.2 ⟨i, List.mem_range.2 (by omega), ?_⟩⟩⟩
    exact decide_eq_true h0
  rw [hm] at this
  cases this

/-- **C105.** Slacks given by constraint can be given by slack exactly if the check of the
description says so and every slack belongs to some constraint. -/
theorem C105_idxs_partial (q : Qp K) :
    (∀ k ≤ q.N, Expressible ((dimsOf q).ns k) (q.get .idxsRev k).rows
      (fun p => (q.get .idxsRev k).e p 0)) ↔
    hasIdxsRevNotIdxs q = false ∧
    ∀ k ≤ q.N, AllUsed ((dimsOf q).ns k) (q.get .idxsRev k).rows
      (fun p => (q.get .idxsRev k).e p 0) := by
  constructor
  · intro h
    refine ⟨?_, fun k hk i hi => ?_⟩
    · unfold hasIdxsRevNotIdxs
      rw [List.any_eq_false]
      intro k hk
      rw [Bool.not_eq_true, List.any_eq_false]
      intro i hi
      rw [decide_eq_true_eq, not_lt]
      obtain ⟨idxs, hx⟩ := h k (by have := List.mem_range.1 hk; omega)
      obtain ⟨-, hx⟩ := hx i (List.mem_range.1 hi)
      have hnd : ((List.range (q.get .idxsRev k).rows).filter
          fun p => decide ((q.get .idxsRev k).e p 0 = (i : K))).Nodup :=
        List.nodup_range.filter _
      have hsub : ((List.range (q.get .idxsRev k).rows).filter
          fun p => decide ((q.get .idxsRev k).e p 0 = (i : K))) ⊆ [idxs i] := by
        intro p hp
        rw [List.mem_filter, List.mem_range, decide_eq_true_eq] at hp
        exact List.mem_singleton.2 ((hx p hp.1).1 hp.2)
      exact (List.subperm_of_subset hnd hsub).length_le
    · obtain ⟨idxs, hx⟩ := h k hk
      exact ⟨idxs i, (hx i hi).1, ((hx i hi).2 _ (hx i hi).1).2 rfl⟩
  · rintro ⟨h, hu⟩ k hk
    choose g hg using hu k hk
    refine ⟨fun i => if hi : i < (dimsOf q).ns k then g i hi else 0, fun i hi => ?_⟩
    simp only [dif_pos hi]
    refine ⟨(hg i hi).1, fun p hp => ⟨fun he => ?_, fun he => he ▸ (hg i hi).2⟩⟩
    by_contra hne
    have h1 : 1 < ((List.range (q.get .idxsRev k).rows).filter
        fun p => decide ((q.get .idxsRev k).e p 0 = (i : K))).length := by
      have hnd : [p, g i hi].Nodup := by simp [hne]
      refine (List.subperm_of_subset hnd fun x hx => ?_).length_le
      rw [List.mem_filter, List.mem_range, decide_eq_true_eq]
      simp only [List.mem_cons, List.not_mem_nil, or_false] at hx
      rcases hx with rfl | rfl
      · exact ⟨hp, he⟩
      · exact hg i hi
    have : hasIdxsRevNotIdxs q = true := by
      unfold hasIdxsRevNotIdxs
      refine List.any_eq_true.2 ⟨k, List.mem_range.2 (by omega),
        List.any_eq_true.2 ⟨i, List.mem_range.2 hi, decide_eq_true h1⟩⟩
    rw [h] at this
    cases this

/-- **C105.** Creating a solver without options fails for every QP, although options are an
optional argument. -/
theorem C105_default_opts_false (s : Desc K) : create s none = none := rfl

end

/-! ### Examples -/

/-- `m` by `n` ones. -/
def ones (m n : ℕ) : Mat ℚ := ⟨m, n, fun _ _ => 1⟩

/-- One state, one control, a soft bound on the state of each of two stages. -/
def exDesc : Desc ℚ where
  N := 1
  arr := fun f k => match f with
    | .A | .B => some (ones 1 1)
    | .b => some (ones 1 1)
    | .Q | .q => some (ones 1 1)
    | .R | .S | .r => if k = 0 then some (ones 1 1) else none
    | .idxb => some ⟨1, 1, fun _ _ => if k = 0 then 1 else 0⟩
    | .lbx | .ubx | .lbxM | .ubxM => some (ones 1 1)
    | .zl | .zu | .Zl | .Zu | .lls | .lus | .llsM | .lusM => some (ones 1 1)
    | .idxsRev => some ⟨1, 1, fun _ _ => 0⟩
    | _ => none

example : (makeConsistent exDesc).isSome = true ∧ (create exDesc (some .fullQpoases)).isSome = true ∧
    (dimsOf (fill exDesc)).rows .lbx 0 = 1 ∧ (dimsOf (fill exDesc)).ns 1 = 1 := by decide +kernel

/-- A changed field. -/
def Desc.with' (s : Desc ℚ) (g : F) (k : ℕ) (m : Option (Mat ℚ)) : Desc ℚ :=
  ⟨s.N, fun f j => if f = g ∧ j = k then m else s.arr f j⟩

/-- Hypotheses of the refusals are met. -/
example : makeConsistent (exDesc.with' .lbxM 1 none) = none ∧
    makeConsistent (exDesc.with' .idxsRev 0 none) = none :=
  ⟨C105_masks_required _ 1 (by decide) rfl (by decide +kernel),
    C105_idxs_rev_required _ 0 (by decide) rfl (by decide +kernel)⟩

/-- A masked bound is refused by a solver without masks and accepted by HPIPM. -/
example : (create (exDesc.with' .lbxM 1 (some ⟨1, 1, fun _ _ => 0⟩)) (some .fullQpoases)).isSome = false ∧
    (create (exDesc.with' .lbxM 1 (some ⟨1, 1, fun _ _ => 0⟩)) (some .fullHpipm)).isSome = true ∧
    (create exDesc (some .partQpdunes)).isSome = false := by decide +kernel

/-- **C105.** The number of columns of `A` is not checked: for an `A` without columns the solver
reads memory outside of the array. -/
theorem C105_A_false : ∃ (s : Desc ℚ) (q : Qp ℚ), makeConsistent s = some q ∧
    0 < (dimsOf q).rows .A 0 * (dimsOf q).cols .A 0 ∧ flat (q.get .A 0) 0 = none :=
  ⟨exDesc.with' .A 0 (some (ones 1 0)), fill (exDesc.with' .A 0 (some (ones 1 0))),
    if_pos (by decide +kernel), by decide +kernel, by decide +kernel⟩

/-- **C105.** The number of upper bounds is not checked: if none are given, the solver reads memory
outside of the array. -/
theorem C105_ubx_false : ∃ (s : Desc ℚ) (q : Qp ℚ), makeConsistent s = some q ∧
    0 < (dimsOf q).rows .ubx 0 ∧ flat (q.get .ubx 0) 0 = none :=
  ⟨exDesc.with' .ubx 0 none, fill (exDesc.with' .ubx 0 none),
    if_pos (by decide +kernel), by decide +kernel, by decide +kernel⟩

/-- Two states at the terminal stage. -/
def exTerm : Desc ℚ :=
  (exDesc.with' .Q 1 (some (ones 2 2))).with' .q 1 (some (ones 2 1))

/-- **C105.** The number of states of the terminal stage is not compared with the rows of the last
`A`: the solver reads memory outside of `A`, `B` and `b`. -/
theorem C105_terminal_false : ∃ (s : Desc ℚ) (q : Qp ℚ), makeConsistent s = some q ∧
    (q.get .A (q.N - 1)).rows ≠ (dimsOf q).nx q.N ∧
    ∀ f, f.isDyn = true → ∃ i < (dimsOf q).rows f (q.N - 1) * (dimsOf q).cols f (q.N - 1),
      flat (q.get f (q.N - 1)) i = none := by
  refine ⟨exTerm, fill exTerm, if_pos (by decide +kernel), by decide +kernel, fun f hf => ?_⟩
  cases f <;> first | (cases hf; done) | exact ⟨1, by decide +kernel, by decide +kernel⟩

/-- **C105.** `Q` need not be square: a row of the user is read as a column. -/
theorem C105_Q_false : ∃ (s : Desc ℚ) (q : Qp ℚ), makeConsistent s = some q ∧
    (q.get .Q 1).cols ≠ (q.get .Q 1).rows ∧
    ∃ i < (dimsOf q).rows .Q 1 * (dimsOf q).cols .Q 1, flat (q.get .Q 1) i = none :=
  ⟨exTerm.with' .Q 1 (some (ones 2 1)), fill (exTerm.with' .Q 1 (some (ones 2 1))),
    if_pos (by decide +kernel), by decide +kernel, 2, by decide +kernel, by decide +kernel⟩

/-- A second slack that no constraint uses. -/
def exUnused : Desc ℚ where
  N := 0
  arr := fun f _ => match f with
    | .Q | .q => some (ones 1 1)
    | .idxb => some ⟨1, 1, fun _ _ => 0⟩
    | .lbx | .ubx | .lbxM | .ubxM => some (ones 1 1)
    | .zl | .zu | .Zl | .Zu | .lls | .lus | .llsM | .lusM => some (ones 2 1)
    | .idxsRev => some ⟨1, 1, fun _ _ => 0⟩
    | _ => none

/-- **C105.** A slack that belongs to no constraint is not noticed: the description is given to a
solver that needs a constraint for each slack, and there is none. -/
theorem C105_idxs_false : ∃ (s : Desc ℚ) (q : Qp ℚ), create s (some .fullQpoases) = some q ∧
    ¬ Expressible ((dimsOf q).ns 0) (q.get .idxsRev 0).rows (fun p => (q.get .idxsRev 0).e p 0) := by
  refine ⟨exUnused, fill exUnused, ?_, ?_⟩
  · refine (C105_create _ _ _).2 ⟨if_pos (by decide +kernel), fun _ => by decide +kernel,
      fun h => (by cases h), fun _ => by decide +kernel⟩
  · rintro ⟨idxs, h⟩
    have h1 : (dimsOf (fill exUnused)).ns 0 = 2 := by decide +kernel
    have h2 : ((fill exUnused).get .idxsRev 0).rows = 1 := by decide +kernel
    rw [h1, h2] at h
    obtain ⟨ha, hb⟩ := h 1 (by omega)
    have := (hb (idxs 1) ha).2 rfl
    have h0 : idxs 1 = 0 := by omega
    rw [h0] at this
    have h3 : ((fill exUnused).get .idxsRev 0).e 0 0 = 0 := by decide +kernel
    simp only [h3] at this
    norm_num at this

end Acados.QpDesc
