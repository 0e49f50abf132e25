import Verif.Lemmas.OcpCost
import Mathlib.Algebra.Order.Ring.Rat
import Mathlib.Algebra.Field.Rat
import Mathlib.Tactic.NormNum

/-!
# C101: the cost of the generated solver is the cost of the description
-/

namespace Acados.OcpCost
open Finset

variable {K : Type} [Field K] [LinearOrder K]

section
variable [IsStrictOrderedRing K]

/-- **C101** (acceptance).  A description whose costs are well-formed at all stages, with weighting matrices that are
symmetric and diagonal with nonnegative entries or positive definite with a margin, is accepted, provided the
eigenvalue routine does not fail on them. -/
theorem C101_accepts (eig : Arr K → Option K) (he : EigOk eig) (D : Desc K) (h : D.Good GoodWeight)
    (hr : eig (D.cost0.getD D.cost).W ≠ none ∧ eig D.cost.W ≠ none ∧ eig D.costE.W ≠ none) :
    (makeConsistent eig D).isSome = true := by
  obtain ⟨h1, h2⟩ := h
  refine makeConsistent_isSome (fun hN => ?_) (wellFormedE_mono (fun g => good_weight eig he _ g hr.2.2) h2)
  obtain ⟨a, b⟩ := h1 hN
  have fit : ∀ c : Cost K, WellFormed GoodWeight D.nx D.nu D.nz D.conlHess c → VzFits D.nz c := by
    intro c hc hk hw hz
    unfold WellFormed at hc
    rw [hk] at hc
    exact (hc.2.2.2.2.2.2.2 hz).2 hw
  exact ⟨(wellFormed_fix (fit _ a)).2 (wellFormed_mono (fun g => good_weight eig he _ g hr.1) a),
    (wellFormed_fix (fit _ b)).2 (wellFormed_mono (fun g => good_weight eig he _ g hr.2.1) b)⟩

/-- **C101** (rejection, partial).  Of an accepted description the costs are well-formed at all stages, if `Vz` has one
column for each algebraic variable.  Missing: the columns of `Vz` are not checked, and a weighting matrix is symmetric
and positive semidefinite only up to tolerances. -/
theorem C101_checks_partial (eig : Arr K → Option K) (he : EigOk eig) (D D' : Desc K) (h : makeConsistent eig D = some D')
    (hv : 0 < D.N → VzFits D.nz (D.cost0.getD D.cost) ∧ VzFits D.nz D.cost) : D.Good NearWeight := by
  obtain ⟨-, -, -, -, -, -, -, -, -, -, -, -, -, -, h1, h2, -⟩ := makeConsistent_some h
  refine ⟨fun hN => ?_, wellFormedE_mono (weight_near eig he _) h2⟩
  obtain ⟨a, b, -, -⟩ := h1 hN
  exact ⟨wellFormed_mono (weight_near eig he _) ((wellFormed_fix (hv hN).1).1 a),
    wellFormed_mono (weight_near eig he _) ((wellFormed_fix (hv hN).2).1 b)⟩

end

theorem calls_of_accepted (eig : Arr K → Option K) (D D' : Desc K) (h : makeConsistent eig D = some D') (hs : D.Sized)
    (hv : 0 < D.N → VzFits D.nz (D.cost0.getD D.cost) ∧ VzFits D.nz D.cost)
    (hext : ∀ k ≤ D.N, (D.at k).kind = .ext → nyAt D k = 0) (k : Nat) (hk : k ≤ D.N) :
    ((cDims D' k).nx = D.nx ∧ (cDims D' k).nu = D.nuAt k ∧ (cDims D' k).nz = D.nzAt k ∧ (cDims D' k).ny = (D.at k).ny
      ∧ (cDims D' k).ns = D.nsAt k)
    ∧ ∃ l, calls D' k = .ok l ∧ (∀ c ∈ l, Means D k (D.at k).ny c.1 c.2) ∧ ∀ f, Needed D k f → f ∈ l.map Prod.fst := by
  obtain ⟨hN, hnx, hnu, hnz, hns0, hns, hnsE, hp0, hp, hpE, hsc, hc, hcE, hc0, h1, h2, h3⟩ := makeConsistent_some h
  have hny : nyAt D' k = (D.at k).ny := by
    have hz : ∀ c : Cost K, c.kind = .ext → c.ny = 0 := by intro c hc; unfold Cost.ny; rw [hc]
    have he := hext k hk
    unfold nyAt Desc.at at *
    rw [hN]
    by_cases e1 : k = D.N
    · simp only [if_pos e1] at he ⊢
      rw [h3]
      split
      · next hx => rw [he hx, hz _ hx]
      · rfl
    · obtain ⟨-, -, g0, g1⟩ := h1 (by omega)
      simp only [if_neg e1] at he ⊢
      by_cases e2 : k = 0
      · simp only [if_pos e2] at he ⊢
        rw [g0]
        split
        · next hx => rw [he hx, hz _ hx]
        · rfl
      · simp only [if_neg e2] at he ⊢
        rw [g1]
        split
        · next hx => rw [he hx, hz _ hx]
        · rfl
  have hplan : planned D' k = .ok (D.at k) := by
    unfold planned Desc.at
    rw [hN, hc, hcE]
    by_cases e1 : k = D.N
    · rw [if_pos e1, if_pos e1]
    · rw [if_neg e1, if_neg e1]
      by_cases e2 : k = 0
      · rw [if_pos e2, if_pos e2, hc0 (by omega)]
      · rw [if_neg e2, if_neg e2]
  have hsd : scaleCall D'.scaling k = .ok (Fld.scaling, fun _ => D.scaling.getD k 0) := by
    have : k < D.scaling.length := by rw [hs.1]; omega
    unfold scaleCall
    rw [hsc, List.getElem?_eq_getElem this]
    simp [List.getD, this]
  have hdm : (cDims D' k).nx = D.nx ∧ (cDims D' k).nu = D.nuAt k ∧ (cDims D' k).nz = D.nzAt k
      ∧ (cDims D' k).ny = (D.at k).ny ∧ (cDims D' k).ns = D.nsAt k := by
    refine ⟨hnx, ?_, ?_, hny, ?_⟩
    · simp only [cDims, Desc.nuAt, hN, hnu]
    · simp only [cDims, Desc.nzAt, hN, hnz]
    · simp only [cDims, Desc.nsAt, hN, hns0, hns, hnsE]
  refine ⟨hdm, ?_⟩
  -- the arrays have the accessed entries
  have hyr : (D.at k).kind ≠ .ext → (D.at k).ny ≤ (D.at k).yref.length := by
    unfold Desc.at
    split
    · unfold WellFormedE at h2
      unfold Cost.ny
      cases hkd : D.costE.kind <;> rw [hkd] at h2 <;> simp only at h2 ⊢
      · exact fun _ => h2.2.2.1.ge
      · exact fun _ => h2.2.2.1.ge
      · exact fun _ => h2.2.2.2.1.ge
      · exact fun h => absurd rfl h
    · next e1 =>
      obtain ⟨w0, w1, -, -⟩ := h1 (by omega)
      have aux : ∀ c : Cost K, WellFormed (fun W => weightOk eig W = true) D.nx D.nu D.nz D.conlHess (fixVz D.nz c) →
          c.kind ≠ .ext → c.ny ≤ c.yref.length := by
        intro c hc
        rcases c with ⟨kd, W, Vx, Vu, Vz, yref, sym, nyE, nr, npsi, extLen, hess⟩
        cases kd
        · exact fun _ => hc.2.2.1.ge
        · exact fun _ => hc.2.2.1.ge
        · exact fun _ => hc.2.2.2.1.ge
        · exact fun h => absurd rfl h
      split
      · exact aux _ w0
      · exact aux _ w1
  have hweight : (D.at k).kind = .ls ∨ (D.at k).kind = .nls → (D.at k).ny = (D.at k).W.rows ∧ (D.at k).W.rows = (D.at k).W.cols := by
    have aux : ∀ c : Cost K, (weightOk eig c.W = true) → c.kind = .ls ∨ c.kind = .nls →
        c.ny = c.W.rows ∧ c.W.rows = c.W.cols := by
      intro c hc hk
      refine ⟨?_, ((weightOk_iff eig _).1 hc).1⟩
      unfold Cost.ny
      rcases hk with hk | hk <;> rw [hk]
    unfold Desc.at
    split
    · intro hkd
      refine aux _ ?_ hkd
      unfold WellFormedE at h2
      rcases hkd with hkd | hkd <;> rw [hkd] at h2 <;> exact h2.2.1
    · next e1 =>
      obtain ⟨w0, w1, -, -⟩ := h1 (by omega)
      have aux2 : ∀ c : Cost K, WellFormed (fun W => weightOk eig W = true) D.nx D.nu D.nz D.conlHess (fixVz D.nz c) →
          c.kind = .ls ∨ c.kind = .nls → weightOk eig c.W = true := by
        intro c hc hk
        rcases c with ⟨kd, W, Vx, Vu, Vz, yref, sym, nyE, nr, npsi, extLen, hess⟩
        cases kd
        · exact hc.2.1
        · exact hc.2.1
        · rcases hk with hk | hk <;> cases hk
        · rcases hk with hk | hk <;> cases hk
      split
      · exact fun hkd => aux _ (aux2 _ w0 hkd) hkd
      · exact fun hkd => aux _ (aux2 _ w1 hkd) hkd
  have hmats : (D.at k).kind = .ls → (D.at k).W.rows ≠ 0 →
      ((D.at k).Vx.rows = (D.at k).W.rows ∧ (D.at k).Vx.cols = D.nx)
      ∧ (D.nuAt k = 0 ∨ ((D.at k).Vu.rows = (D.at k).W.rows ∧ (D.at k).Vu.cols = D.nuAt k))
      ∧ (D.nzAt k = 0 ∨ ((D.at k).Vz.rows = (D.at k).W.rows ∧ (D.at k).Vz.cols = D.nzAt k)) := by
    unfold Desc.at Desc.nuAt Desc.nzAt
    by_cases e1 : k = D.N
    · simp only [if_pos e1]
      intro hkd hw
      unfold WellFormedE at h2
      rw [hkd] at h2
      exact ⟨⟨h2.2.2.2.1, h2.2.2.2.2 hw⟩, .inl trivial, .inl trivial⟩
    · simp only [if_neg e1]
      have hNp : 0 < D.N := by omega
      obtain ⟨w0, w1, -, -⟩ := h1 hNp
      have aux : ∀ c : Cost K, WellFormed (fun W => weightOk eig W = true) D.nx D.nu D.nz D.conlHess (fixVz D.nz c) →
          VzFits D.nz c → c.kind = .ls → c.W.rows ≠ 0 →
          (c.Vx.rows = c.W.rows ∧ c.Vx.cols = D.nx) ∧ (D.nu = 0 ∨ (c.Vu.rows = c.W.rows ∧ c.Vu.cols = D.nu))
          ∧ (D.nz = 0 ∨ (c.Vz.rows = c.W.rows ∧ c.Vz.cols = D.nz)) := by
        intro c hc hf hkd hw
        have hc := (wellFormed_fix hf).1 hc
        unfold WellFormed at hc
        rw [hkd] at hc
        refine ⟨⟨hc.2.2.2.1, hc.2.2.2.2.1 hw⟩, .inr ⟨hc.2.2.2.2.2.1, hc.2.2.2.2.2.2.1 hw⟩, ?_⟩
        by_cases hz : D.nz = 0
        · exact .inl hz
        · exact .inr ⟨(hc.2.2.2.2.2.2.2 hz).1, (hc.2.2.2.2.2.2.2 hz).2 hw⟩
      split
      · exact aux _ w0 (hv hNp).1
      · exact aux _ w1 (hv hNp).2
  have hyr' : (D.at k).ny ≤ (D.at k).yref.length := by
    by_cases hkd : (D.at k).kind = .ext
    · have : (D.at k).ny = 0 := by unfold Cost.ny; rw [hkd]
      omega
    · exact hyr hkd
  obtain ⟨l, el, l1, l2, l3, l4, l5, l6, l7⟩ := costCalls_ok D k (D.at k).ny (D.at k) rfl hyr'
    (fun hkd => by obtain ⟨a, b⟩ := hweight hkd; omega)
    (fun hkd => by
      by_cases h0 : (D.at k).ny = 0
      · exact .inl h0
      · have a := (hweight (.inl hkd)).1
        obtain ⟨⟨b, c⟩, -, -⟩ := hmats hkd (by omega)
        exact .inr (.inr ⟨by omega, by omega⟩))
    (fun hkd => by
      by_cases h0 : (D.at k).ny = 0
      · exact .inl h0
      · have a := (hweight (.inl hkd)).1
        obtain ⟨-, b, -⟩ := hmats hkd (by omega)
        rcases b with b | ⟨b, c⟩
        · exact .inr (.inl b)
        · exact .inr (.inr ⟨by omega, by omega⟩))
    (fun hkd => by
      by_cases h0 : (D.at k).ny = 0
      · exact .inl h0
      · have a := (hweight (.inl hkd)).1
        obtain ⟨-, -, b⟩ := hmats hkd (by omega)
        rcases b with b | ⟨b, c⟩
        · exact .inr (.inl b)
        · exact .inr (.inr ⟨by omega, by omega⟩))
  obtain ⟨q, eq, q1, q2, q3⟩ := penCalls_ok D k (D.at k).ny hs
  have hcc : costCalls (nyAt D' k) D'.nx (if k = D'.N then 0 else D'.nu) (if k = D'.N then 0 else D'.nz) (D.at k) = .ok l := by
    rw [hny, hnx, hN, hnu, hnz]; exact el
  have hpc : penCalls (if k = D'.N then D'.nsE else if k = 0 then D'.ns0 else D'.ns)
      (if k = D'.N then D'.penE else if k = 0 then D'.pen0 else D'.pen) = .ok q := by
    rw [hN, hns0, hns, hnsE, hp0, hp, hpE]; exact eq
  refine ⟨(Fld.scaling, fun _ => D.scaling.getD k 0) :: (l ++ q), ?_, ?_, ?_⟩
  · unfold calls
    rw [hplan]
    change (do
      let s ← scaleCall D'.scaling k
      let l ← costCalls (nyAt D' k) D'.nx (if k = D'.N then 0 else D'.nu) (if k = D'.N then 0 else D'.nz) (D.at k)
      let p ← penCalls (if k = D'.N then D'.nsE else if k = 0 then D'.ns0 else D'.ns)
        (if k = D'.N then D'.penE else if k = 0 then D'.pen0 else D'.pen)
      if (s :: (l ++ p)).all (fun a => accepts (D.at k).kind a.1) then .ok (s :: (l ++ p)) else .error .exit) = _
    rw [hsd, hcc, hpc]
    refine if_pos ?_
    rw [List.all_eq_true]
    intro a ha
    simp only [List.mem_cons, List.mem_append] at ha
    rcases ha with rfl | ha | ha
    · cases (D.at k).kind <;> rfl
    · obtain ⟨b, c⟩ := l2 a ha
      have hne : (D.at k).kind ≠ .ext := by
        intro hx; apply b; unfold Cost.ny; rw [hx]
      rcases c with c | ⟨c, d | d⟩ | c
      · rw [c]
        cases hkd : (D.at k).kind
        · rfl
        · rfl
        · rfl
        · exact absurd hkd hne
      · rw [c, d]; rfl
      · rw [c, d]; rfl
      · rw [c]; rfl
    · rcases q2 a ha with c | c | c | c <;> rw [c] <;> cases (D.at k).kind <;> rfl
  · intro a ha
    simp only [List.mem_cons, List.mem_append] at ha
    rcases ha with rfl | ha | ha
    · rfl
    · exact l1 a ha
    · exact q1 a ha
  · intro f hf
    simp only [List.map_cons, List.map_append, List.mem_cons, List.mem_append]
    cases f
    · exact .inl rfl
    · exact .inr (.inl (l3 hf))
    · exact .inr (.inl (l4 hf.1 hf.2))
    · exact .inr (.inl (l5 hf.1 hf.2))
    · exact .inr (.inl (l6 hf.1 hf.2.1 hf.2.2))
    · exact .inr (.inl (l7 hf.1 hf.2.1 hf.2.2))
    · exact .inr (.inr (q3 hf).1)
    · exact .inr (.inr (q3 hf).2.1)
    · exact .inr (.inr (q3 hf).2.2.1)
    · exact .inr (.inr (q3 hf).2.2.2)

/-- **C101** (data, partial).  For an accepted description the generated solver sets at every stage the fields the cost
of that stage depends on, with buffers that hold the data of the description: those of the initial stage, or of the
other stages if there are none, at stage 0; the dimensions of the module are those of the description.  Missing: `Vz`
needs one column per algebraic variable, and `dims.ny*` has to be 0 at stages with an external cost. -/
theorem C101_calls_partial (eig : Arr K → Option K) (D D' : Desc K) (h : makeConsistent eig D = some D') (hs : D.Sized)
    (hv : 0 < D.N → VzFits D.nz (D.cost0.getD D.cost) ∧ VzFits D.nz D.cost)
    (hext : ∀ k ≤ D.N, (D.at k).kind = .ext → nyAt D k = 0) (k : Nat) (hk : k ≤ D.N) :
    ((cDims D' k).nx = D.nx ∧ (cDims D' k).nu = D.nuAt k ∧ (cDims D' k).nz = D.nzAt k ∧ (cDims D' k).ny = (D.at k).ny
      ∧ (cDims D' k).ns = D.nsAt k)
    ∧ ∃ l, calls D' k = .ok l ∧ (∀ c ∈ l, Means D k (D.at k).ny c.1 c.2) ∧ ∀ f, Needed D k f → f ∈ l.map Prod.fst :=
  calls_of_accepted eig D D' h hs hv hext k hk

/-- **C101** (linear least squares, partial).  For an accepted description with a symmetric weighting matrix, after the
calls of the generated solver and the initialisation, whatever the memory held before, both the linearisation and the
evaluation of the cost at a stage with linear least-squares cost yield
`scaling (½ ‖Vx x + Vu u + Vz z - yref‖²_W + zlᵀ sl + zuᵀ su + ½ slᵀ Zl sl + ½ suᵀ Zu su)` with the data of the
description.  The factorisation of an array with the entries of `W` has to be exact. -/
theorem C101_ls_partial [IsStrictOrderedRing K] (eig : Arr K → Option K) (D D' : Desc K)
    (h : makeConsistent eig D = some D') (hs : D.Sized)
    (hv : 0 < D.N → VzFits D.nz (D.cost0.getD D.cost) ∧ VzFits D.nz D.cost)
    (hext : ∀ k ≤ D.N, (D.at k).kind = .ext → nyAt D k = 0) (k : Nat) (hk : k ≤ D.N) (hkd : (D.at k).kind = .ls)
    (hsym : ∀ i < (D.at k).W.rows, ∀ j < (D.at k).W.rows, (D.at k).W.el i j = (D.at k).W.el j i)
    (e : Acados.Cost.Ext K)
    (hfac : ∀ V : Nat → Nat → K, (∀ i < (D.at k).W.rows, ∀ j < (D.at k).W.rows, V i j = (D.at k).W.el i j) →
      Acados.Cost.Factorizes e (D.at k).W.rows V)
    (s0 : Acados.Cost.LsState K) (hf : Acados.Cost.LsFresh s0) :
    ∃ l, calls D' k = .ok l ∧
      let d := cDims D' k
      let s := (l.map fun c => Acados.Cost.LsOp.set (toLs d.ny c)).foldl (Acados.Cost.lsStep d e) s0
      ∀ add p q,
        let u := Acados.Cost.lsUpdate d add (Acados.Cost.lsInitialize d e s) p
        let val := fun p : Acados.Cost.Point K => stageCost D k (fun i => p.ux (D.nuAt k + i)) p.ux p.z
          (fun i => p.ux (D.nuAt k + D.nx + i)) (fun i => p.ux (D.nuAt k + D.nx + D.nsAt k + i))
        u.mem.fn = val p ∧ (Acados.Cost.lsComputeFun d u q).mem.fn = val q := by
  obtain ⟨⟨hx, hu, hz, hy, hn⟩, l, el, l1, l2⟩ := calls_of_accepted eig D D' h hs hv hext k hk
  have hny : (D.at k).ny = (D.at k).W.rows := by unfold Cost.ny; rw [hkd]
  refine ⟨l, el, ?_⟩
  intro d s add p q u val
  have hfold : ∀ (l : List (Call K)) (a : Acados.Cost.LsData K),
      (l.map fun c => Acados.Cost.LsOp.set (toLs d.ny c)).foldl (Acados.Cost.LsData.call d) a
        = l.foldl (fun a c => a.write d (toLs (D.at k).ny c)) a := by
    intro l
    induction l with
    | nil => intro a; rfl
    | cons c l ih =>
      intro a
      rw [List.map_cons, List.foldl_cons, List.foldl_cons, ih]
      change List.foldl _ (a.write d (toLs d.ny c)) l = _
      rw [show d.ny = (D.at k).ny from hy]
  have h0 : Acados.Cost.LsInv d e s0 :=
    ⟨fun h => (by rw [hf.w] at h; cases h), fun h => (by rw [hf.w] at h; cases h)⟩
  obtain ⟨-, hh, -⟩ := Acados.Cost.ls_history d e (l.map fun c => Acados.Cost.LsOp.set (toLs d.ny c)) s0 (s0.m.data d) h0
    (Acados.Cost.holds_data d s0.m)
  have ha : ∀ f, Agree D k ((l.map fun c => Acados.Cost.LsOp.set (toLs d.ny c)).foldl (Acados.Cost.LsData.call d) (s0.m.data d)) f := by
    intro f
    rw [hfold]
    have need : Needed D k f → Agree D k (l.foldl (fun a c => a.write d (toLs (D.at k).ny c)) (s0.m.data d)) f :=
      fun hf => agree_fold D k d hn l l1 f _ (.inl (l2 f hf))
    by_cases hy0 : (D.at k).ny = 0
    · by_cases hn0 : D.nsAt k = 0
      · cases f
        · exact need trivial
        all_goals intro i hi; omega
      · cases f
        · exact need trivial
        · intro i hi; omega
        · intro i hi; omega
        · intro i hi; omega
        · intro i hi; omega
        · intro i hi; omega
        all_goals exact need (Nat.pos_of_ne_zero hn0)
    · have hpen : D.nsAt k = 0 ∨ 0 < D.nsAt k := by omega
      cases f
      · exact need trivial
      · exact need hy0
      · exact need ⟨hy0, .inl hkd⟩
      · exact need ⟨hy0, hkd⟩
      · rcases Nat.eq_zero_or_pos (D.nuAt k) with h | h
        · intro i _ j hj; omega
        · exact need ⟨hy0, hkd, h⟩
      · rcases Nat.eq_zero_or_pos (D.nzAt k) with h | h
        · intro i _ j hj; omega
        · exact need ⟨hy0, hkd, h⟩
      all_goals
        rcases hpen with h | h
        · intro i hi; omega
        · exact need h
  generalize haa : (l.map fun c => Acados.Cost.LsOp.set (toLs d.ny c)).foldl (Acados.Cost.LsData.call d) (s0.m.data d) = a at ha hh
  have hval := fun ux z => value_eq D k a hkd ha hsym ux z
  have hdv : ∀ ux z, a.value d.nu d.nx d.nz d.ny d.ns ux z
      = stageCost D k (fun i => ux (D.nuAt k + i)) ux z (fun i => ux (D.nuAt k + D.nx + i))
          (fun i => ux (D.nuAt k + D.nx + D.nsAt k + i)) := by
    intro ux z
    rw [← hval, show d.nu = D.nuAt k from hu, show d.nx = D.nx from hx, show d.nz = D.nzAt k from hz,
      show d.ny = (D.at k).W.rows from hy.trans hny, show d.ns = D.nsAt k from hn]
  by_cases hy0 : (D.at k).ny = 0
  · have hd0 : d.ny = 0 := hy.trans hy0
    have hm : (Acados.Cost.lsInitialize d e s).m = { s.m with wChanged := false, cytChanged := false } :=
      Acados.Cost.lsUpdateW_data d e s
    have hum : u.m = { s.m with wChanged := false, cytChanged := false } := hm
    have hsm : Acados.Cost.Holds d s.m a := hh
    constructor
    · change _ = stageCost D k _ _ _ _ _
      rw [← hdv]
      change Acados.Cost.scaledFun _ _ = _
      rw [hm]
      simp only [Acados.Cost.scaledFun_eq, Acados.Cost.slackFun_eq, hd0, range_zero, sum_empty, mul_zero, hsm.sc, hsm.sz,
        hsm.sZ, Acados.Cost.LsData.value, Acados.Cost.halfSq]
      rfl
    · change _ = stageCost D k _ _ _ _ _
      rw [← hdv]
      change Acados.Cost.scaledFun _ _ = _
      rw [hum]
      simp only [Acados.Cost.scaledFun_eq, Acados.Cost.slackFun_eq, hd0, range_zero, sum_empty, mul_zero, hsm.sc, hsm.sz,
        hsm.sZ, Acados.Cost.LsData.value, Acados.Cost.halfSq]
      rfl
  · have hW : ∃ W, Acados.Cost.LsOp.set (.W W) ∈ (l.map fun c => Acados.Cost.LsOp.set (toLs d.ny c)) := by
      have := l2 .W ⟨hy0, .inl hkd⟩
      obtain ⟨c, hc, hcf⟩ := List.mem_map.1 this
      obtain ⟨f, b⟩ := c
      simp only at hcf
      subst hcf
      exact ⟨_, List.mem_map.2 ⟨_, hc, rfl⟩⟩
    have := Acados.Cost.C42_ls_history d e s0 hf (l.map fun c => Acados.Cost.LsOp.set (toLs d.ny c)) hW add p q
    rw [haa] at this
    have hfa : Acados.Cost.Factorizes e d.ny a.W := by
      have hw := ha .W
      simp only [Agree, hny] at hw
      have := hfac a.W hw
      rw [show d.ny = (D.at k).W.rows from hy.trans hny]
      exact this
    obtain ⟨-, g1, g2, -, -, -⟩ := this hfa
    exact ⟨g1.trans (hdv p.ux p.z), g2.trans (hdv q.ux q.z)⟩

/-- **C101** (type of the terminal external cost, partial).  Of the two valid types the terminal cost accepts the one
that the path cost has at that moment. -/
theorem C101_ext_type_partial (path v : List Char) (hp : path = "casadi".toList ∨ path = "generic".toList)
    (hv : v = "casadi".toList ∨ v = "generic".toList) : setExtFunTypeE path v = if v = path then some v else none := by
  rcases hp with rfl | rfl <;> rcases hv with rfl | rfl <;> decide

/-! ## Concrete descriptions -/

/-- a matrix given by its rows -/
def ofRows (cols : Nat) (l : List (List ℚ)) : Arr ℚ := ⟨l.length, cols, fun i j => (l.getD i []).getD j 0⟩

/-- a linear least-squares cost -/
def exLs (W Vx Vu Vz : Arr ℚ) (yref : List ℚ) : Cost ℚ := ⟨.ls, W, Vx, Vu, Vz, yref, false, 0, 0, 0, none, none⟩

/-- a nonlinear least-squares cost with one output -/
def exNls : Cost ℚ :=
  ⟨.nls, ofRows 1 [[1]], ofRows 0 [], ofRows 0 [], ofRows 0 [], [0], false, 1, 0, 0, none, none⟩

/-- an external cost -/
def exExternal : Cost ℚ :=
  ⟨.ext, ofRows 0 [], ofRows 0 [], ofRows 0 [], ofRows 0 [], [], false, 0, 0, 0, some 1, none⟩

/-- no slack penalties -/
def exPen : Pen ℚ := ⟨[], [], [], []⟩

/-- a description with two intervals, one state, one control and the given costs -/
def exDesc (nz : Nat) (c0 : Option (Cost ℚ)) (c cE : Cost ℚ) : Desc ℚ :=
  ⟨2, 1, 1, nz, true, c0, c, cE, 0, 0, 0, 0, 1, 0, exPen, ⟨[3], [4], [5], [6]⟩, exPen, [1, 2, 1]⟩

/-- the weighting matrix `[2 1; 1 2]` -/
def exW2 : Arr ℚ := ofRows 2 [[2, 1], [1, 2]]

/-- a linear least-squares cost with a weighting matrix that is not diagonal -/
def exCost : Cost ℚ := exLs exW2 (ofRows 1 [[1], [0]]) (ofRows 1 [[0], [1]]) (ofRows 0 [[], []]) [3, 4]

/-- an eigenvalue routine for `[2 1; 1 2]`, that fails on other matrices with rows -/
def exEig (A : Arr ℚ) : Option ℚ :=
  if A.rows = 0 then some 0
  else if A.rows = 2 ∧ A.el 0 0 = 2 ∧ A.el 1 0 = 1 ∧ A.el 1 1 = 2 then some 1 else none

theorem exEig_ok : EigOk exEig := by
  intro A lam hsq hpos h
  unfold exEig at h
  rw [if_neg (by omega)] at h
  split at h
  · next hA =>
    obtain ⟨h0, h1, h2, h3⟩ := hA
    injection h with h
    subst h
    unfold IsMinEig form
    simp only [h0, Finset.sum_range_succ, Finset.sum_range_zero, zero_add]
    simp only [h1, h2, h3, le_refl, if_true, show ¬ (1 : Nat) ≤ 0 by omega, if_false, show (0 : Nat) ≤ 1 by omega]
    refine ⟨fun v => ?_, fun i => if i = 0 then 1 else -1, by norm_num, by norm_num⟩
    have := mul_self_nonneg (v 0 + v 1)
    linarith
  · cases h

theorem exGood : (exDesc 0 none exCost exExternal).Good GoodWeight := by
  have hw : GoodWeight exW2 := by
    refine ⟨rfl, ?_, .inr ⟨1, by norm_num, ?_⟩⟩
    · intro i hi j hj
      change i < 2 at hi
      change j < 2 at hj
      have hi' : i = 0 ∨ i = 1 := by omega
      have hj' : j = 0 ∨ j = 1 := by omega
      rcases hi' with rfl | rfl <;> rcases hj' with rfl | rfl <;> rfl
    · intro v
      have e : form exW2.rows exW2.el v = 2 * v 0 * v 0 + 1 * v 0 * v 1 + (1 * v 1 * v 0 + 2 * v 1 * v 1) := by
        unfold form
        change ∑ i ∈ range 2, ∑ j ∈ range 2, _ = _
        simp only [Finset.sum_range_succ, Finset.sum_range_zero, zero_add]
        rfl
      rw [e]
      change _ * ∑ i ∈ range 2, _ ≤ _
      simp only [Finset.sum_range_succ, Finset.sum_range_zero, zero_add]
      have := mul_self_nonneg (v 0 + v 1)
      linarith
  have hwf : WellFormed GoodWeight 1 1 0 true exCost :=
    ⟨rfl, hw, rfl, rfl, fun _ => rfl, rfl, fun _ => rfl, fun h => absurd rfl h⟩
  exact ⟨fun _ => ⟨hwf, hwf⟩, rfl, .inl rfl⟩

theorem exists_some {α : Type} {o : Option α} (P : α → Prop) [DecidablePred P] (h : o.any (fun a => decide (P a)) = true) :
    ∃ a, o = some a ∧ P a := by
  cases o with
  | none => cases h
  | some a => exact ⟨a, rfl, of_decide_eq_true h⟩

theorem exSized : (exDesc 0 none exCost exExternal).Sized := by
  refine ⟨rfl, fun k => ?_⟩
  unfold Desc.penAt Desc.nsAt exDesc exPen
  simp only
  split
  · exact ⟨rfl, rfl, rfl, rfl⟩
  · split
    · exact ⟨rfl, rfl, rfl, rfl⟩
    · exact ⟨rfl, rfl, rfl, rfl⟩

/-- non-vacuity of `C101_accepts` -/
example : EigOk exEig ∧ (exDesc 0 none exCost exExternal).Good GoodWeight
    ∧ (exEig exCost.W ≠ none ∧ exEig exCost.W ≠ none ∧ exEig exExternal.W ≠ none)
    ∧ (makeConsistent exEig (exDesc 0 none exCost exExternal)).isSome = true :=
  ⟨exEig_ok, exGood, by decide +kernel, C101_accepts exEig exEig_ok _ exGood (by decide +kernel)⟩

/-- non-vacuity of `C101_checks_partial` and `C101_calls_partial`: the buffers of stage 1 -/
example : ∃ D', makeConsistent exEig (exDesc 0 none exCost exExternal) = some D'
    ∧ (0 < 2 → VzFits 0 exCost ∧ VzFits 0 exCost) ∧ (exDesc 0 none exCost exExternal).Sized
    ∧ (∀ k ≤ 2, ((exDesc 0 none exCost exExternal).at k).kind = .ext → nyAt (exDesc 0 none exCost exExternal) k = 0)
    ∧ (match calls D' 1 with
       | .ok l => l.map fun c => (c.1, c.2 0, c.2 1)
       | .error _ => [])
      = [(.scaling, 2, 2), (.yref, 3, 4), (.W, 2, 1), (.Vx, 1, 0), (.Vu, 0, 1), (.Zl, 3, 0), (.Zu, 4, 0), (.zl, 5, 0),
          (.zu, 6, 0)] := by
  obtain ⟨D', h1, h2⟩ := exists_some (o := makeConsistent exEig (exDesc 0 none exCost exExternal))
    (fun D' => (match calls D' 1 with
       | .ok l => l.map fun c => (c.1, c.2 0, c.2 1)
       | .error _ => [])
      = [(.scaling, 2, 2), (.yref, 3, 4), (.W, 2, 1), (.Vx, 1, 0), (.Vu, 0, 1), (.Zl, 3, 0), (.Zu, 4, 0), (.zl, 5, 0),
          (.zu, 6, 0)]) (by decide +kernel)
  refine ⟨D', h1, fun _ => ⟨fun _ _ h => absurd rfl h, fun _ _ h => absurd rfl h⟩, exSized, ?_, h2⟩
  intro k hk
  have : k = 0 ∨ k = 1 ∨ k = 2 := by omega
  rcases this with rfl | rfl | rfl <;> decide

/-- non-vacuity of `C101_ls_partial`: the same description with a diagonal weighting matrix, whose factor is rational -/
example : let c := exLs (ofRows 2 [[4, 0], [0, 9]]) (ofRows 1 [[1], [0]]) (ofRows 1 [[0], [1]]) (ofRows 0 [[], []]) [3, 4]
    let D := exDesc 0 none c exExternal
    let e : Acados.Cost.Ext ℚ := ⟨fun _ i j => if i ≠ j then 0 else if i = 0 then 2 else 3, fun _ => 0⟩
    (makeConsistent exEig D).isSome = true ∧ (D.at 1).kind = .ls
    ∧ (∀ i < 2, ∀ j < 2, (D.at 1).W.el i j = (D.at 1).W.el j i)
    ∧ (∀ V : Nat → Nat → ℚ, (∀ i < 2, ∀ j < 2, V i j = (D.at 1).W.el i j) → Acados.Cost.Factorizes e 2 V)
    ∧ stageCost D 1 (fun _ => 1) (fun _ => 1) (fun _ => 0) (fun _ => 1) (fun _ => 0) = 110 := by
  refine ⟨by decide +kernel, rfl, by decide +kernel, ?_, by decide +kernel⟩
  intro V hV
  have h00 : V 0 0 = 4 := hV 0 (by omega) 0 (by omega)
  have h01 : V 0 1 = 0 := hV 0 (by omega) 1 (by omega)
  have h10 : V 1 0 = 0 := hV 1 (by omega) 0 (by omega)
  have h11 : V 1 1 = 9 := hV 1 (by omega) 1 (by omega)
  unfold Acados.Cost.Factorizes
  rw [if_neg (by simp [Acados.Cost.isDiag])]
  intro i hi j hj
  have : i = 0 ∧ j = 0 ∨ i = 1 ∧ j = 0 ∨ i = 1 ∧ j = 1 := by omega
  rcases this with ⟨rfl, rfl⟩ | ⟨rfl, rfl⟩ | ⟨rfl, rfl⟩
  · simp [h00]; try norm_num
  · simp [h10]
  · simp [h11]; try norm_num

/-! ## Where the full property fails -/

/-- **C101** (counterexample).  The columns of `Vz` are not checked: with fewer columns than algebraic variables a
description is accepted and the code cannot be generated. -/
theorem C101_vz_missing_counterexample : ∃ D D' : Desc ℚ,
    makeConsistent exEig D = some D' ∧ D.Sized ∧ ¬ VzFits D.nz D.cost ∧ (calls D' 1).toOption.isNone = true := by
  obtain ⟨D', h1, h2⟩ := exists_some (o := makeConsistent exEig
    (exDesc 2 none (exLs (ofRows 1 [[1]]) (ofRows 1 [[1]]) (ofRows 1 [[0]]) (ofRows 1 [[1]]) [0]) exExternal))
    (fun D' => (calls D' 1).toOption.isNone = true) (by decide +kernel)
  refine ⟨_, D', h1, exSized, ?_, h2⟩
  intro h
  exact absurd (h rfl (by decide) (by decide)) (by decide)

/-- **C101** (counterexample).  With more columns in `Vz` than algebraic variables a description is accepted too, and
the generated solver is the same whatever these columns contain. -/
theorem C101_vz_extra_counterexample : ∃ Vz : ℚ → Arr ℚ, (∀ a b, (Vz a).el 0 1 = (Vz b).el 0 1 → a = b) ∧
    ∀ a, ∃ D', makeConsistent exEig (exDesc 1 none
        (exLs (ofRows 1 [[1]]) (ofRows 1 [[1]]) (ofRows 1 [[0]]) (Vz a) [0]) exExternal) = some D'
      ∧ ∃ l, calls D' 1 = .ok l ∧ ∀ b D'', makeConsistent exEig (exDesc 1 none
        (exLs (ofRows 1 [[1]]) (ofRows 1 [[1]]) (ofRows 1 [[0]]) (Vz b) [0]) exExternal) = some D'' → calls D'' 1 = .ok l := by
  have hm : ∀ V : Arr ℚ, V.rows = 1 → makeConsistent exEig (exDesc 1 none
        (exLs (ofRows 1 [[1]]) (ofRows 1 [[1]]) (ofRows 1 [[0]]) V [0]) exExternal) = some
      { exDesc 1 none (exLs (ofRows 1 [[1]]) (ofRows 1 [[1]]) (ofRows 1 [[0]]) V [0]) exExternal with
        cost0 := some (exLs (ofRows 1 [[1]]) (ofRows 1 [[1]]) (ofRows 1 [[0]]) V [0]), ny0 := 1, ny := 1, nyE := 0 } := by
    intro V hV
    have hw : weightOk exEig (ofRows 1 [[1]]) = true := by decide +kernel
    have hs : stageOk exEig 1 1 1 true (exLs (ofRows 1 [[1]]) (ofRows 1 [[1]]) (ofRows 1 [[0]]) V [0]) = some (some 1) := by
      unfold ofRows at hw
      simp only [List.getD_eq_getElem?_getD, List.length_cons, List.length_nil, zero_add] at hw
      simp [stageOk, exLs, hw, hV, ofRows]
    have ht : termOk exEig 1 true exExternal = some none := by decide +kernel
    unfold makeConsistent
    rw [if_neg (show ¬ (exDesc 1 none (exLs (ofRows 1 [[1]]) (ofRows 1 [[1]]) (ofRows 1 [[0]]) V [0]) exExternal).N = 0
      from Nat.succ_ne_zero 1)]
    change (match stageOk exEig 1 1 1 true (exLs (ofRows 1 [[1]]) (ofRows 1 [[1]]) (ofRows 1 [[0]]) V [0]),
        stageOk exEig 1 1 1 true (exLs (ofRows 1 [[1]]) (ofRows 1 [[1]]) (ofRows 1 [[0]]) V [0]),
        termOk exEig 1 true exExternal with
      | some n0, some n, some nE => some _
      | _, _, _ => none) = _
    rw [hs, ht]
    rfl
  refine ⟨fun a => ⟨1, 2, fun _ j => if j = 0 then 1 else a⟩, fun a b h => h, fun a => ⟨_, hm _ rfl, _, rfl, ?_⟩⟩
  intro b D'' hD
  rw [hm _ rfl] at hD
  injection hD with hD
  subst hD
  rfl

/-- the weighting matrix `[1 1/2; 1/2+4e-6 1]` -/
def exAsym : Arr ℚ := ofRows 2 [[1, 1 / 2], [1 / 2 + 4 / 10 ^ 6, 1]]

/-- the smallest eigenvalue of the symmetric matrix with the lower triangle of `exAsym` -/
def exEigA (A : Arr ℚ) : Option ℚ :=
  if A.rows = 2 ∧ A.el 0 0 = 1 ∧ A.el 1 0 = 1 / 2 + 4 / 10 ^ 6 ∧ A.el 1 1 = 1 then some (1 / 2 - 4 / 10 ^ 6) else none

/-- a description with the terminal stage only, two states and the given weighting matrix -/
def exTerm (W : Arr ℚ) : Desc ℚ :=
  let c := exLs W (ofRows 2 [[1, 0], [0, 1]]) (ofRows 0 [[], []]) (ofRows 0 [[], []]) [0, 0]
  ⟨0, 2, 0, 0, true, none, exExternal, c, 0, 0, 0, 0, 0, 0, exPen, exPen, exPen, [1]⟩

/-- a point with `x = (1, 1)` -/
def exPoint : Acados.Cost.Point ℚ := ⟨fun _ => 1, fun _ => 0, fun _ _ => 0⟩

/-- the value of the cost of the generated solver at stage 0 -/
def exValue (D : Desc ℚ) : Option ℚ :=
  match calls D 0 with
  | .error _ => none
  | .ok l =>
    let d := cDims D 0
    let s := (l.map fun c => Acados.Cost.LsOp.set (toLs d.ny c)).foldl (Acados.Cost.lsStep d Acados.Cost.exExt2)
      Acados.Cost.exFresh
    some (Acados.Cost.lsUpdate d false (Acados.Cost.lsInitialize d Acados.Cost.exExt2 s) exPoint).mem.fn

/-- **C101** (counterexample).  The check of symmetry has a relative tolerance of `10⁻⁵`: the matrix
`[1 1/2; 1/2+4e-6 1]` passes, and the cost of the generated solver at `x = (1, 1)` is not that of the description. -/
theorem C101_asymmetric_counterexample : ∃ D', makeConsistent exEigA (exTerm exAsym) = some D'
    ∧ exAsym.el 0 1 ≠ exAsym.el 1 0 ∧ ∃ v, exValue D' = some v
    ∧ v ≠ stageCost (exTerm exAsym) 0 (fun _ => 1) (fun _ => 1) (fun _ => 0) (fun _ => 1) (fun _ => 1) := by
  obtain ⟨D', h1, h2⟩ := exists_some (o := makeConsistent exEigA (exTerm exAsym))
    (fun D' => exValue D' = some (3 / 2 + 4 / 10 ^ 6)) (by decide +kernel)
  exact ⟨D', h1, by decide +kernel, _, h2, by decide +kernel⟩

/-- the matrix `[0 5e-11; 5e-11 0]` -/
def exIndef : Arr ℚ := ofRows 2 [[0, 5 / 10 ^ 11], [5 / 10 ^ 11, 0]]

/-- **C101** (counterexample).  Off-diagonal entries below `10⁻¹⁰` count as zero: an indefinite weighting matrix is
accepted with every eigenvalue routine. -/
theorem C101_indefinite_counterexample (eig : Arr ℚ → Option ℚ) : (makeConsistent eig (exTerm exIndef)).isSome = true
    ∧ ∃ v : Nat → ℚ, form 2 exIndef.el v < 0 := by
  refine ⟨?_, fun i => if i = 0 then 1 else -1, by decide +kernel⟩
  refine makeConsistent_isSome (fun h => absurd h (by decide)) ⟨rfl, ?_, rfl, rfl, fun _ => rfl⟩
  have hd : nearDiag exIndef = true := by decide +kernel
  have hr : (exIndef.rows == exIndef.cols && closeT exIndef) = true := by decide +kernel
  have hn : (!((List.range exIndef.rows).any fun i => decide (exIndef.el i i < 0))) = true := by decide +kernel
  change weightOk eig exIndef = true
  unfold weightOk
  rw [hr, hd, if_pos rfl, hn]
  rfl

/-- the matrix `10⁻¹⁰ [2 1; 1 2]` -/
def exSmall : Arr ℚ := ofRows 2 [[2 / 10 ^ 10, 1 / 10 ^ 10], [1 / 10 ^ 10, 2 / 10 ^ 10]]

/-- **C101** (counterexample).  A symmetric positive definite weighting matrix with small entries is refused with
every correct eigenvalue routine. -/
theorem C101_small_weight_counterexample (eig : Arr ℚ → Option ℚ) (he : EigOk eig) :
    makeConsistent eig (exTerm exSmall) = none
    ∧ ∀ v : Nat → ℚ, (v 0 ≠ 0 ∨ v 1 ≠ 0) → 0 < form 2 exSmall.el v := by
  have hform : ∀ v : Nat → ℚ, form 2 exSmall.el v
      = 2 / 10 ^ 10 * v 0 * v 0 + 1 / 10 ^ 10 * v 0 * v 1 + (1 / 10 ^ 10 * v 1 * v 0 + 2 / 10 ^ 10 * v 1 * v 1) := by
    intro v
    unfold form
    simp only [Finset.sum_range_succ, Finset.sum_range_zero, zero_add]
    rfl
  constructor
  · have hd : nearDiag exSmall = false := by decide +kernel
    have hw : weightOk eig exSmall = false := by
      unfold weightOk
      rw [hd]
      cases hE : eig exSmall with
      | none => simp
      | some lam =>
        have h1 := (he exSmall lam rfl (by decide) hE).1 (fun i => if i = 0 then 1 else -1)
        have h2 : lam ≤ tol := by
          have e1 : ∑ i ∈ range exSmall.rows, (if i = 0 then (1 : ℚ) else -1) * (if i = 0 then 1 else -1) = 2 := by
            decide +kernel
          have e2 : form exSmall.rows (fun i j => if j ≤ i then exSmall.el i j else exSmall.el j i)
              (fun i => if i = 0 then 1 else -1) = 2 / 10 ^ 10 := by decide +kernel
          simp only [e1, e2] at h1
          unfold tol
          linarith
        simp [not_lt.2 h2]
    unfold makeConsistent
    rw [if_pos (show (exTerm exSmall).N = 0 from rfl)]
    have ht : termOk eig 2 true (exTerm exSmall).costE = none := by
      change (if false = true then none else if (!weightOk eig exSmall) = true then none else _) = none
      rw [hw]
      rfl
    change (match termOk eig 2 true (exTerm exSmall).costE with
      | none => none
      | some n => some _) = none
    rw [ht]
  · intro v hv
    rw [hform]
    have h3 := mul_self_nonneg (v 0 + v 1)
    have h4 : 0 < v 0 * v 0 + v 1 * v 1 := by
      rcases hv with h | h
      · have := mul_self_pos.2 h
        have := mul_self_nonneg (v 1)
        linarith
      · have := mul_self_pos.2 h
        have := mul_self_nonneg (v 0)
        linarith
    have h5 : 0 < 1 / 10 ^ 10 * ((v 0 * v 0 + v 1 * v 1) + (v 0 + v 1) * (v 0 + v 1)) :=
      mul_pos (by norm_num) (by linarith)
    linarith

/-- the cost after `cost_type` is changed to `EXTERNAL` and an expression is given -/
def exChanged : Cost ℚ := { exNls with kind := .ext, extLen := some 1 }

/-- **C101** (counterexample).  `dims.ny` keeps its value when the cost is changed to an external one: the second
generated solver exits at its creation, although a new description with the same costs works. -/
theorem C101_history_counterexample : ∃ D1 D2 D3 : Desc ℚ,
    makeConsistent exEig (exDesc 0 none exNls exExternal) = some D1
    ∧ makeConsistent exEig { D1 with cost0 := none, cost := exChanged } = some D2
    ∧ makeConsistent exEig (exDesc 0 none exChanged exExternal) = some D3
    ∧ (match calls D2 1 with | .ok _ => none | .error e => some e) = some Err.exit
    ∧ (calls D3 0).toOption.isSome = true ∧ (calls D3 1).toOption.isSome = true
    ∧ (calls D3 2).toOption.isSome = true := by
  obtain ⟨D1, h1, D2, h2, h3⟩ : ∃ D1, makeConsistent exEig (exDesc 0 none exNls exExternal) = some D1
      ∧ ∃ D2, makeConsistent exEig { D1 with cost0 := none, cost := exChanged } = some D2
        ∧ (match calls D2 1 with | .ok _ => none | .error e => some e) = some Err.exit := by
    have h : ((makeConsistent exEig (exDesc 0 none exNls exExternal)).any fun D1 =>
        (makeConsistent exEig { D1 with cost0 := none, cost := exChanged }).any fun D2 =>
          decide ((match calls D2 1 with | .ok _ => none | .error e => some e) = some Err.exit)) = true := by
      decide +kernel
    cases e : makeConsistent exEig (exDesc 0 none exNls exExternal) with
    | none => rw [e] at h; cases h
    | some D1 =>
      rw [e] at h
      exact ⟨D1, rfl, exists_some _ h⟩
  obtain ⟨D3, h4, h5⟩ := exists_some (o := makeConsistent exEig (exDesc 0 none exChanged exExternal))
    (fun D3 : Desc ℚ => (calls D3 0).toOption.isSome = true ∧ (calls D3 1).toOption.isSome = true
      ∧ (calls D3 2).toOption.isSome = true) (by decide +kernel)
  exact ⟨D1, D2, D3, h1, h2, h4, h3, h5⟩

/-- **C101** (counterexample).  The first check copies the path cost to the initial stage: when the path cost is
changed and the description checked again, stage 0 keeps the old reference. -/
theorem C101_initial_counterexample : ∃ D1 D2 : Desc ℚ,
    makeConsistent exEig (exDesc 0 none exCost exExternal) = some D1
    ∧ makeConsistent exEig { D1 with cost := { exCost with yref := [7, 8] } } = some D2
    ∧ (D2.at 1).yref = [7, 8] ∧ (D2.at 0).yref = [3, 4] := by
  have h : ((makeConsistent exEig (exDesc 0 none exCost exExternal)).any fun D1 =>
      (makeConsistent exEig { D1 with cost := { exCost with yref := [7, 8] } }).any fun D2 =>
        decide ((D2.at 1).yref = [7, 8] ∧ (D2.at 0).yref = [3, 4])) = true := by
    decide +kernel
  cases e : makeConsistent exEig (exDesc 0 none exCost exExternal) with
  | none => rw [e] at h; cases h
  | some D1 =>
    rw [e] at h
    obtain ⟨D2, h1, h2⟩ := exists_some _ h
    exact ⟨D1, D2, rfl, h1, h2⟩

/-- **C101** (counterexample).  The setter tests for a substring: with an external path cost of type `casadi` a
terminal cost of type `generic` is refused, and a type that does not exist is accepted. -/
theorem C101_ext_type_counterexample : setExtFunTypeE "casadi".toList "generic".toList = none
    ∧ setExtFunTypeE "casadi".toList "cas".toList = some "cas".toList ∧ setExtFunTypeE "casadi".toList [] = some [] := by
  decide

end Acados.OcpCost
