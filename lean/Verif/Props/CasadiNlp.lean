import Verif.Lemmas.CasadiNlpIter
import Mathlib.Algebra.Order.Ring.Rat
import Mathlib.Tactic.NormNum
import Mathlib.Tactic.IntervalCases

/-!
# C97: the CasADi formulation of an optimal control problem

`AcadosCasadiOcp` turns an optimal control problem into one nonlinear program and
`AcadosCasadiOcpSolver` reads and writes primal and dual variables of that program by stage.
-/

namespace Acados.CasadiNlp

section
variable {K : Type*} [Field K] [LinearOrder K] [IsStrictOrderedRing K]

omit [LinearOrder K] [IsStrictOrderedRing K] in
theorem build_some {o : Ocp K} {n : Nlp K} (h : build o = some n) :
    n = ⟨vars o, cons o⟩ ∧ 0 < o.N ∧ o.path.nsphi = 0 ∧ o.term.nsphi = 0 := by
  unfold build at h
  by_cases hr : refused o = true
  · simp [hr] at h
  · rw [if_neg hr] at h
    refine ⟨(Option.some.inj h).symm, ?_⟩
    simp [refused] at hr
    omega

/-- **C97, feasible points.**  If the construction succeeds, a point satisfies the bounds and
constraints of the nonlinear program exactly if its trajectory is feasible for the optimal control
problem.  Missing for the full claim: bounds of slacks other than zero, soft
convex-over-nonlinear constraints of the initial stage, integrators whose numbers of steps or
stages differ from those of the first interval, see the theorems ending in `_false`. -/
theorem C97_feasible_partial (o : Ocp K) (n : Nlp K) (hb : build o = some n) (ho : Proper o)
    (hphi : o.init.nsphi = 0)
    (hz : ∀ i, i ≤ o.N → ∀ k, k < (o.at i).nsh → (o.at i).lsh k = 0 ∧ (o.at i).ush k = 0)
    (hst : ∀ i, i < o.N → o.f (o.steps i) i = o.f (o.steps 0) i) (v : Sym → K) :
    n.Feasible o v ↔ Feasible o (traj v) := by
  obtain ⟨rfl, hN, h1, h2⟩ := build_some hb
  refine feasible_iff o ho hN (fun i _ => ?_) hz hst v
  unfold Ocp.at
  split
  · exact hphi
  · split
    · exact h1
    · exact h2

omit [LinearOrder K] [IsStrictOrderedRing K] in
/-- **C97, cost.**  The objective of the nonlinear program is the objective of the optimal control
problem, if the terminal cost does not depend on a control. -/
theorem C97_cost (o : Ocp K) (n : Nlp K) (hb : build o = some n)
    (hterm : ∀ x u u', o.term.cost o.N x u = o.term.cost o.N x u') (v : Sym → K) :
    cost o v = objective o (traj v) :=
  cost_eq o v hterm (build_some hb).2.1

/-- The variable named by a field, a stage and an entry. -/
def PField.sym : PField → ℕ → ℕ → Sym
  | .x => .x
  | .u => .u
  | .sl => .sl
  | .su => .su

/-- The number of entries of a field at a stage, `none` if the stage has no such field. -/
def PField.dim (o : Ocp K) (i : ℕ) : PField → Option ℕ
  | .x => if i ≤ o.N then some o.nx else none
  | .u => if i < o.N then some o.nu else none
  | .sl => if i ≤ o.N then some (o.at i).soft else none
  | .su => if i ≤ o.N then some (o.at i).soft else none

omit [LinearOrder K] [IsStrictOrderedRing K] in
theorem primal_maps (o : Ocp K) (ho : Proper o) (f : PField) (i d : ℕ) (hd : f.dim o i = some d) :
    ∃ idx, ((Nlp.primal ⟨vars o, cons o⟩ f)[i]?) = some idx ∧
      At (wAll o) idx ((List.range d).map (f.sym i)) := by
  have hv := (vinv o ho).p
  have hnum : numSlack (varData o i) = (o.at i).soft := rfl
  cases f <;> simp only [PField.dim] at hd <;> split at hd <;> simp at hd <;> subst hd
  · exact hv.x.2 i (by omega)
  · exact hv.u.2 i (by omega)
  · exact hv.sl.2 i (by omega)
  · exact hv.su.2 i (by omega)

omit [LinearOrder K] [IsStrictOrderedRing K] in
/-- **C97, reading.**  `get(stage, field)` returns the entries of the field of that stage, in their
order; stages without the field are refused. -/
theorem C97_get (o : Ocp K) (n : Nlp K) (hb : build o = some n) (ho : Proper o) (v : Sym → K)
    (f : PField) (i : ℕ) :
    getP n (n.v.w.map v) f i = (f.dim o i).map (fun d => (List.range d).map (fun j => v (f.sym i j))) := by
  obtain ⟨rfl, hN, h1, h2⟩ := build_some hb
  cases hd : f.dim o i with
  | some d =>
    obtain ⟨idx, e1, e2⟩ := primal_maps o ho f i d hd
    unfold getP
    rw [e1]
    have hw : (vars o).w = wAll o := (vinv o ho).p.hw
    simp only [Option.bind_some, hw, Option.map_some]
    rw [pick_at (e2.map v), List.map_map]
    rfl
  | none =>
    have hv := (vinv o ho).p
    have : (Nlp.primal ⟨vars o, cons o⟩ f)[i]? = none := by
      rw [List.getElem?_eq_none_iff]
      cases f <;> simp only [PField.dim] at hd <;> split at hd <;> simp at hd
      · exact hv.x.1.trans_le (by omega)
      · exact hv.u.1.trans_le (by omega)
      · exact hv.sl.1.trans_le (by omega)
      · exact hv.su.1.trans_le (by omega)
    unfold getP
    rw [this]
    rfl

omit [LinearOrder K] [IsStrictOrderedRing K] in
/-- **C97, writing.**  `set(stage, field, value)` stores the value in the entries of that field and
stage and changes nothing else. -/
theorem C97_set (o : Ocp K) (n : Nlp K) (hb : build o = some n) (ho : Proper o) (v v' : Sym → K)
    (f : PField) (i d : ℕ) (hd : f.dim o i = some d)
    (hv : ∀ s, (∀ j, j < d → s ≠ f.sym i j) → v' s = v s) :
    setP n f (n.v.w.map v) i ((List.range d).map (fun j => v' (f.sym i j))) =
      some (n.v.w.map v') := by
  obtain ⟨rfl, hN, h1, h2⟩ := build_some hb
  obtain ⟨idx, e1, e2⟩ := primal_maps o ho f i d hd
  have hw : (vars o).w = wAll o := (vinv o ho).p.hw
  unfold setP assignAt
  rw [e1]
  simp only [Option.bind_some, hw]
  have := assign_at (nodup_w o (o.N + 1)) v' v e2
  rw [List.map_map] at this
  refine this.trans ?_
  congr 1
  apply List.map_congr_left
  intro s _
  split
  · rfl
  · rename_i hs
    symm
    apply hv
    intro j hj he
    exact hs (List.mem_map.2 ⟨j, List.mem_range.2 hj, he.symm⟩)

omit [IsStrictOrderedRing K] in
/-- **C97, multipliers of the dynamics.**  `get(stage, 'pi')` is minus the multiplier of
`x_{i+1} - f(x_i, u_i) = 0`, that is the multiplier of `f(x_i, u_i) - x_{i+1} = 0`, which is the
convention of acados. -/
theorem C97_pi (o : Ocp K) (n : Nlp K) (hb : build o = some n) (μg : Con → K) (i : ℕ)
    (hi : i < o.N) :
    getPi n (n.c.g.map μg) i = some ((List.range o.nx).map (fun j => -μg (.dyn i j))) := by
  obtain ⟨rfl, hN, h1, h2⟩ := build_some hb
  have hg : (cons o).g = gAll o := (cinv o).hg
  simp only [hg]
  rw [getPi_eq o μg hi]
  simp [dyns, Function.comp_def]

/-- **C97, multipliers.**  `get(stage, 'lam')` returns multipliers in the order documented for
acados: bounds on controls and states, linear, nonlinear and convex-over-nonlinear constraints,
first for lower, then for upper bounds, then lower and upper slacks.  A multiplier of a
two-sided constraint of the nonlinear program is split into its negative and its positive part; a
soft constraint has the multipliers of its two parts, at its place among the nonlinear
constraints. -/
theorem C97_lam (o : Ocp K) (n : Nlp K) (hb : build o = some n) (ho : Proper o) (μ : Sym → K)
    (μg : Con → K) (i : ℕ) (hi : i ≤ o.N) :
    ∃ m : Mult K, getLam o n (n.v.w.map μ) (n.c.g.map μg) i = some m.flat ∧
      m.lbu = (List.range (if i < o.N then o.nbu else 0)).map (fun k => max 0 (-μ (.u i (o.idxbu k)))) ∧
      m.ubu = (List.range (if i < o.N then o.nbu else 0)).map (fun k => max 0 (μ (.u i (o.idxbu k)))) ∧
      m.lbx = (List.range (o.at i).nbx).map (fun k => max 0 (-μ (.x i ((o.at i).idxbx k)))) ∧
      m.ubx = (List.range (o.at i).nbx).map (fun k => max 0 (μ (.x i ((o.at i).idxbx k)))) ∧
      m.lg = (List.range (if i < o.N then o.ng else o.nge)).map (fun k => max 0 (-μg (.lin i k))) ∧
      m.ug = (List.range (if i < o.N then o.ng else o.nge)).map (fun k => max 0 (μg (.lin i k))) ∧
      m.lphi = (List.range (o.at i).nphi).map (fun k => max 0 (-μg (.phi i k))) ∧
      m.uphi = (List.range (o.at i).nphi).map (fun k => max 0 (μg (.phi i k))) ∧
      m.lh.length = (o.at i).nh ∧ m.uh.length = (o.at i).nh ∧
      (∀ r, r < (o.at i).nh → (∀ k, k < (o.at i).nsh → (o.at i).idxsh k ≠ r) →
        m.lh[r]? = some (max 0 (-μg (.h i r))) ∧ m.uh[r]? = some (max 0 (μg (.h i r)))) ∧
      (∀ k, k < (o.at i).nsh →
        m.lh[(o.at i).idxsh k]? = some (-μg (.hl i ((o.at i).idxsh k) k)) ∧
        m.uh[(o.at i).idxsh k]? = some (μg (.hu i ((o.at i).idxsh k) k))) ∧
      m.ls = (List.range (o.at i).soft).map (fun k => -μ (.sl i k)) ∧
      m.us = (List.range (o.at i).soft).map (fun k => -μ (.su i k)) := by
  obtain ⟨rfl, hN, h1, h2⟩ := build_some hb
  have hg : (cons o).g = gAll o := (cinv o).hg
  have hw : (vars o).w = wAll o := (vinv o ho).p.hw
  have hd : conData o i = o.at i := conData_eq o hN i
  let rowL : ℕ → K := fun r => if r ∈ softList (o.at i)
    then -μg (.hl i r ((softList (o.at i)).idxOf r)) else max 0 (-μg (.h i r))
  let rowU : ℕ → K := fun r => if r ∈ softList (o.at i)
    then μg (.hu i r ((softList (o.at i)).idxOf r)) else max 0 (μg (.h i r))
  have hl : ∀ l : List ℕ, (l.flatMap (rowC (conData o i) i)).map (lowMult μg) = l.map rowL := by
    intro l
    induction l with
    | nil => rfl
    | cons r t ih =>
      rw [List.flatMap_cons, List.map_append, ih, List.map_cons, hd]
      simp only [rowC, rowL]
      by_cases h : r ∈ softList (o.at i) <;> simp [h, lowMult]
  have hu : ∀ l : List ℕ, (l.flatMap (rowC (conData o i) i)).map (upMult μg) = l.map rowU := by
    intro l
    induction l with
    | nil => rfl
    | cons r t ih =>
      rw [List.flatMap_cons, List.map_append, ih, List.map_cons, hd]
      simp only [rowC, rowU]
      by_cases h : r ∈ softList (o.at i) <;> simp [h, upMult]
  refine ⟨⟨_, _, _, (List.range (o.at i).nh).map rowL, _, _, _, _,
    (List.range (o.at i).nh).map rowU, _, _, _⟩, ?_, rfl, rfl, rfl, rfl, rfl, rfl, rfl, rfl,
    by simp, by simp, ?_, ?_, rfl, rfl⟩
  · simp only [hg, hw]
    rw [getLam_eq o ho μ μg hi]
    unfold lamList Mult.flat rowsAt
    simp only [List.map_append, hl, hu]
    unfold busN bus bxs lins phis sls sus
    rw [hd]
    have hc : conNg o i = if i < o.N then o.ng else o.nge := rfl
    have hb' : (if i < o.N then (List.range o.nbu).map (fun k => Sym.u i (o.idxbu k)) else []) =
        (List.range (if i < o.N then o.nbu else 0)).map (fun k => Sym.u i (o.idxbu k)) := by
      split <;> simp
    rw [hb', hc]
    simp only [List.map_map]
    rfl
  · intro r hr hs
    have hns : r ∉ softList (o.at i) := by
      intro h
      obtain ⟨k, hk, e⟩ := (mem_softList _ _).1 h
      exact hs k hk e
    simp [hr, rowL, rowU, hns]
  · intro k hk
    have hr := ho.sh i hi k hk
    have hs : (o.at i).idxsh k ∈ softList (o.at i) := (mem_softList _ _).2 ⟨k, hk, rfl⟩
    have hx := idxOf_soft (o.at i) (ho.shInj i hi) hk
    simp [hr, rowL, rowU, hs, hx]

/-- The variables with bounds: those named by the index lists, and all slacks. -/
def Bounded (o : Ocp K) : Sym → Prop
  | .x i j => ∃ k, k < (o.at i).nbx ∧ (o.at i).idxbx k = j
  | .u _ j => ∃ k, k < o.nbu ∧ o.idxbu k = j
  | .sl _ _ => True
  | .su _ _ => True

/-- **C97, copying an iterate.**  Reading the multipliers of every stage and writing them back as
initial multipliers (`set_iterate(get_iterate())`) reproduces all multipliers of constraints and
those of all variables with bounds; the others keep their initial values. -/
theorem C97_iterate (o : Ocp K) (n : Nlp K) (hb : build o = some n) (ho : Proper o)
    (lamW lamG w0 g0 : List K) (hw : lamW.length = n.v.w.length) (hg : lamG.length = n.c.g.length)
    (hw0 : w0.length = n.v.w.length) (hg0 : g0.length = n.c.g.length) :
    ∃ w1 g1, copyLam o n lamW lamG (w0, g0) = some (w1, g1) ∧ copyPi o n lamG g1 = some lamG ∧
      w1.length = n.v.w.length ∧
      ∀ (p : ℕ) (s : Sym), n.v.w[p]? = some s →
        (Bounded o s → w1[p]? = lamW[p]?) ∧ (¬ Bounded o s → w1[p]? = w0[p]?) := by
  classical
  obtain ⟨rfl, hN, h1, h2⟩ := build_some hb
  have eg : (cons o).g = gAll o := (cinv o).hg
  have ew : (vars o).w = wAll o := (vinv o ho).p.hw
  simp only [eg, ew] at *
  have nw : (wAll o).Nodup := nodup_w o _
  obtain ⟨μ, rfl⟩ := exists_map nw lamW hw
  obtain ⟨ν, rfl⟩ := exists_map nw w0 hw0
  obtain ⟨μg, rfl⟩ := exists_map (nodup_g o) lamG hg
  obtain ⟨νg, rfl⟩ := exists_map (nodup_g o) g0 hg0
  refine ⟨_, _, copyLam_eq o ho hN μ ν μg νg, ?_, by simp, ?_⟩
  · rw [copyPi_eq]
    congr 1
    apply List.map_congr_left
    intro c hc
    split
    · rfl
    · rename_i h
      rcases covers o hc with h' | h'
      · exact absurd h' h
      · rw [if_pos h']
  · intro p s hs
    have hmem : s ∈ wAll o := List.mem_of_getElem? hs
    simp only [List.getElem?_map, hs, Option.map_some]
    have hst : (∃ i, i ≤ o.N ∧ s ∈ bnd o i) ↔ Bounded o s := by
      obtain ⟨i, hi, hm⟩ := List.mem_flatMap.1 hmem
      have hi := List.mem_range.1 hi
      have hvd : ∀ i, varData o i = o.at i := fun _ => rfl
      unfold symsAt at hm
      simp only [List.mem_append] at hm
      rcases hm with ((hm | hm) | hm) | hm
      · obtain ⟨j, hj, rfl⟩ := List.mem_map.1 hm
        constructor
        · rintro ⟨i', hi', hb'⟩
          unfold bnd at hb'
          simp only [List.mem_append] at hb'
          rcases hb' with ((hb' | hb') | hb') | hb'
          · obtain ⟨k, hk, e⟩ := List.mem_map.1 hb'
            simp only [Sym.x.injEq] at e
            obtain ⟨rfl, e⟩ := e
            exact ⟨k, List.mem_range.1 hk, e⟩
          · unfold busN bus at hb'
            split at hb'
            · obtain ⟨k, hk, e⟩ := List.mem_map.1 hb'; cases e
            · cases hb'
          · obtain ⟨k, hk, e⟩ := List.mem_map.1 hb'; cases e
          · obtain ⟨k, hk, e⟩ := List.mem_map.1 hb'; cases e
        · rintro ⟨k, hk, e⟩
          refine ⟨i, by omega, ?_⟩
          unfold bnd bxs
          simp only [List.mem_append, List.mem_map, List.mem_range]
          exact Or.inl (Or.inl (Or.inl ⟨k, hk, by rw [hvd, e]⟩))
      · split at hm
        · rename_i hiN
          obtain ⟨j, hj, rfl⟩ := List.mem_map.1 hm
          constructor
          · rintro ⟨i', hi', hb'⟩
            unfold bnd at hb'
            simp only [List.mem_append] at hb'
            rcases hb' with ((hb' | hb') | hb') | hb'
            · obtain ⟨k, hk, e⟩ := List.mem_map.1 hb'; cases e
            · unfold busN bus at hb'
              split at hb'
              · obtain ⟨k, hk, e⟩ := List.mem_map.1 hb'
                simp only [Sym.u.injEq] at e
                exact ⟨k, List.mem_range.1 hk, e.2⟩
              · cases hb'
            · obtain ⟨k, hk, e⟩ := List.mem_map.1 hb'; cases e
            · obtain ⟨k, hk, e⟩ := List.mem_map.1 hb'; cases e
          · rintro ⟨k, hk, e⟩
            refine ⟨i, by omega, ?_⟩
            unfold bnd busN bus
            rw [if_pos hiN]
            simp only [List.mem_append, List.mem_map, List.mem_range]
            exact Or.inl (Or.inl (Or.inr ⟨k, hk, by rw [e]⟩))
        · cases hm
      · obtain ⟨j, hj, rfl⟩ := List.mem_map.1 hm
        refine ⟨fun _ => trivial, fun _ => ⟨i, by omega, by simp [bnd, hm]⟩⟩
      · obtain ⟨j, hj, rfl⟩ := List.mem_map.1 hm
        refine ⟨fun _ => trivial, fun _ => ⟨i, by omega, by simp [bnd, hm]⟩⟩
    exact ⟨fun h => by rw [if_pos (hst.2 h)], fun h => by rw [if_neg (fun h' => h (hst.1 h'))]⟩

/-- **C97, flat multipliers without slacks.**  `set_flat('lam', get_flat('lam'))` does the same as
copying stage by stage, if no stage has slacks.  Missing: slacks, see `C97_flat_false`. -/
theorem C97_flat_partial (o : Ocp K) (n : Nlp K) (hb : build o = some n) (ho : Proper o)
    (h0 : ∀ i, i ≤ o.N → (o.at i).soft = 0) (lamW lamG : List K) (s : List K × List K)
    (hw : lamW.length = n.v.w.length) (hg : lamG.length = n.c.g.length) :
    ∃ l, getFlatLam o n lamW lamG = some l ∧ setFlatLam o n s l = copyLam o n lamW lamG s := by
  obtain ⟨rfl, hN, h1, h2⟩ := build_some hb
  have eg : (cons o).g = gAll o := (cinv o).hg
  have ew : (vars o).w = wAll o := (vinv o ho).p.hw
  simp only [eg, ew] at *
  obtain ⟨μ, rfl⟩ := exists_map (nodup_w o (o.N + 1)) lamW hw
  obtain ⟨μg, rfl⟩ := exists_map (nodup_g o) lamG hg
  refine ⟨_, getFlat_eq o ho μ μg, ?_⟩
  rw [setFlat_eq o hN h0 μ μg s]
  unfold copyLam
  apply foldlM_congr
  intro s i hi
  rw [show (List.range (o.N + 1)).flatMap (symsAt o) = wAll o from rfl,
    getLam_eq o ho μ μg (by have := List.mem_range.1 hi; omega)]
  rfl

omit [IsStrictOrderedRing K] in
/-- **C97 is false for flat multipliers with slacks**: as soon as a stage has a slack,
`set_flat('lam', value)` raises an exception for every vector, also for the one returned by
`get_flat('lam')`: the entries of the slacks are not counted. -/
theorem C97_flat_false (o : Ocp K) (n : Nlp K) (hb : build o = some n) (ho : Proper o) (i : ℕ)
    (hi : i ≤ o.N) (hs : 0 < (o.at i).soft) (s : List K × List K) (val : List K) :
    setFlatLam o n s val = none := by
  obtain ⟨rfl, hN, h1, h2⟩ := build_some hb
  unfold setFlatLam
  rw [foldlM_none _ _ i (List.mem_range.2 (by omega))]
  · rfl
  · intro s
    rw [setLam_short o ho hN hi hs]
    · rfl
    · unfold slice
      simp only [List.length_drop, List.length_take]
      omega

omit [IsStrictOrderedRing K] in
/-- **C97, reading bounds of nonlinear constraints.**  `constraints_get(stage, 'lh')` returns the
lower bounds if no constraint of the stage is soft.  Missing: soft constraints, see
`C97_lh_false`. -/
theorem C97_lh_partial (o : Ocp K) (n : Nlp K) (hb : build o = some n) (i : ℕ)
    (hi : i ≤ o.N) (hs : (o.at i).nsh = 0) :
    getLh n i = some ((List.range (o.at i).nh).map (fun r => some ((o.at i).lh r))) := by
  obtain ⟨rfl, hN, h1, h2⟩ := build_some hb
  rw [getLh_eq o hi]
  have hd : conData o i = o.at i := conData_eq o hN i
  unfold hardHs
  rw [hd]
  congr 1
  have : ∀ l : List ℕ, (l.flatMap (hardRow (o.at i) i)).map (lbOf o) =
      l.map (fun r => some ((o.at i).lh r)) := by
    intro l
    induction l with
    | nil => rfl
    | cons r t ih =>
      rw [List.flatMap_cons, List.map_append, ih, List.map_cons]
      simp [hardRow, soft_none hs, lbOf, hd]
  exact this _

omit [IsStrictOrderedRing K] in
/-- **C97 is false for reading bounds of soft constraints**: they are left out. -/
theorem C97_lh_false (o : Ocp K) (n : Nlp K) (hb : build o = some n) (ho : Proper o) (i : ℕ)
    (hi : i ≤ o.N) (hs : 0 < (o.at i).nsh) :
    ∃ l, getLh n i = some l ∧ l.length < (o.at i).nh := by
  obtain ⟨rfl, hN, h1, h2⟩ := build_some hb
  refine ⟨_, getLh_eq o hi, ?_⟩
  have hd : conData o i = o.at i := conData_eq o hN i
  have hr := ho.sh i hi 0 hs
  have hm : (o.at i).idxsh 0 ∈ softList (o.at i) := (mem_softList _ _).2 ⟨0, hs, rfl⟩
  unfold hardHs
  rw [List.length_map, hd]
  have key : ∀ l : List ℕ, (l.flatMap (hardRow (o.at i) i)).length ≤ l.length ∧
      ((o.at i).idxsh 0 ∈ l → (l.flatMap (hardRow (o.at i) i)).length < l.length) := by
    intro l
    induction l with
    | nil => simp
    | cons r t ih =>
      rw [List.flatMap_cons, List.length_append, List.length_cons]
      unfold hardRow at ih ⊢
      by_cases h : r ∈ softList (o.at i)
      · simp only [h, if_true, List.length_nil]
        exact ⟨by omega, fun _ => by omega⟩
      · simp only [h, if_false, List.length_singleton]
        refine ⟨by omega, fun hmem => ?_⟩
        rcases List.mem_cons.1 hmem with e | e
        · exact absurd (e ▸ hm) h
        · have := ih.2 e
          omega
  have := (key (List.range (o.at i).nh)).2 (List.mem_range.2 hr)
  simpa using this

omit [IsStrictOrderedRing K] in
/-- **C97, bounds on states.**  `constraints_get(stage, 'lbx')` returns the bounds of the problem.
-/
theorem C97_get_lbx (o : Ocp K) (n : Nlp K) (hb : build o = some n) (ho : Proper o) (i : ℕ)
    (hi : i ≤ o.N) :
    getLbx n i = some ((List.range (o.at i).nbx).map (fun k => some ((o.at i).lbx k))) := by
  obtain ⟨rfl, hN, h1, h2⟩ := build_some hb
  unfold getLbx
  simp only
  rw [lbw_eq o ho]
  rw [pickAt_at (lwOf o) (l := wAll o) (vinv o ho).p.bx (by omega)]
  congr 1
  unfold bxs
  rw [List.map_map]
  apply List.map_congr_left
  intro k hk
  have hk := List.mem_range.1 hk
  exact look_at hk (ho.bxInj i hi)

omit [IsStrictOrderedRing K] in
/-- **C97, changing bounds on states.**  `set(stage, 'lbx', value)`, for example with the current
state at stage 0, changes the lower bounds of the bounded states of that stage and nothing else. -/
theorem C97_set_lbx (o : Ocp K) (n : Nlp K) (hb : build o = some n) (ho : Proper o) (i : ℕ)
    (hi : i ≤ o.N) (b : ℕ → K) :
    ∃ n', setLbx n i ((List.range (o.at i).nbx).map b) = some n' ∧ n'.c = n.c ∧
      n'.v.w = n.v.w ∧ n'.v.ubw = n.v.ubw ∧ n'.v.lbw.length = n.v.w.length ∧
      ∀ (p : ℕ) (s : Sym), n.v.w[p]? = some s →
        (∀ k, k < (o.at i).nbx → s = .x i ((o.at i).idxbx k) → n'.v.lbw[p]? = some (some (b k))) ∧
        ((∀ k, k < (o.at i).nbx → s ≠ .x i ((o.at i).idxbx k)) → n'.v.lbw[p]? = n.v.lbw[p]?) := by
  classical
  obtain ⟨rfl, hN, h1, h2⟩ := build_some hb
  have ew : (vars o).w = wAll o := (vinv o ho).p.hw
  obtain ⟨idx, e1, e2⟩ := (vinv o ho).p.bx.2 i (by omega)
  let f : Sym → Option K := fun s => match s with
    | .x _ j => look (o.at i).idxbx b (o.at i).nbx j
    | _ => none
  have hval : ((List.range (o.at i).nbx).map b).map some = (bxs o i).map f := by
    unfold bxs
    rw [List.map_map, List.map_map]
    apply List.map_congr_left
    intro k hk
    exact (look_at (List.mem_range.1 hk) (ho.bxInj i hi)).symm
  have ha := assign_at (nodup_w o (o.N + 1)) f (lwOf o) e2
  have hmem : ∀ s : Sym, s ∈ bxs o i ↔ ∃ k, k < (o.at i).nbx ∧ s = .x i ((o.at i).idxbx k) := by
    intro s
    unfold bxs
    simp only [List.mem_map, List.mem_range]
    exact ⟨fun ⟨k, hk, e⟩ => ⟨k, hk, e.symm⟩, fun ⟨k, hk, e⟩ => ⟨k, hk, e.symm⟩⟩
  refine ⟨⟨{ vars o with lbw := (wAll o).map (fun s => if s ∈ bxs o i then f s else lwOf o s) },
    cons o⟩, ?_, rfl, rfl, rfl, by simp [ew], ?_⟩
  · unfold setLbx
    simp only [e1, Option.bind_some]
    rw [hval, lbw_eq o ho, show wAll o = (List.range (o.N + 1)).flatMap (symsAt o) from rfl, ha]
    rfl
  · intro p s hs
    simp only [ew] at hs
    refine ⟨fun k hk e => ?_, fun hne => ?_⟩
    · simp only [List.getElem?_map, hs, Option.map_some]
      rw [if_pos ((hmem s).2 ⟨k, hk, e⟩), e]
      exact congrArg some (look_at hk (ho.bxInj i hi))
    · simp only [List.getElem?_map, hs, Option.map_some, lbw_eq o ho]
      rw [if_neg]
      intro h
      obtain ⟨k, hk, e⟩ := (hmem s).1 h
      exact hne k hk e

omit [LinearOrder K] [IsStrictOrderedRing K] in
/-- **C97, Hessian.**  With `with_hessian=True` the construction succeeds exactly for problems
without linear and without soft nonlinear constraints; otherwise an assertion fails. -/
theorem C97_hessian (o : Ocp K) (n : Nlp K) (hb : build o = some n) (ho : Proper o) :
    buildHess o = some n ↔
      ∀ i, i ≤ o.N → (if i < o.N then o.ng else o.nge) = 0 ∧ (o.at i).nsh = 0 := by
  have hb' := hb
  obtain ⟨rfl, hN, h1, h2⟩ := build_some hb
  have eg : (cons o).g = gAll o := (cinv o).hg
  unfold buildHess
  rw [hb']
  simp only [Option.bind_some, eg]
  rw [g_length o ho hN]
  have hz : ((List.range (o.N + 1)).map (fun i => conNg o i + (conData o i).nsh)).sum = 0 ↔
      ∀ i, i ≤ o.N → (if i < o.N then o.ng else o.nge) = 0 ∧ (o.at i).nsh = 0 := by
    have hsum : ∀ (l : List ℕ), l.sum = 0 ↔ ∀ a ∈ l, a = 0 := by
      intro l
      induction l with
      | nil => simp
      | cons a t ih => simp [ih]
    rw [hsum]
    constructor
    · intro h i hi
      have := h _ (List.mem_map.2 ⟨i, List.mem_range.2 (by omega), rfl⟩)
      rw [conData_eq o hN] at this
      unfold conNg at this
      omega
    · intro h a ha
      obtain ⟨i, hi, rfl⟩ := List.mem_map.1 ha
      have := h i (by have := List.mem_range.1 hi; omega)
      rw [conData_eq o hN]
      unfold conNg
      omega
  rw [← hz]
  constructor
  · intro h
    split at h
    · omega
    · cases h
  · intro h
    rw [if_pos (by omega)]

omit [LinearOrder K] [IsStrictOrderedRing K] in
/-- **C97, refusals.**  Soft bounds, soft linear constraints, soft convex-over-nonlinear
constraints after the initial stage, algebraic variables, implicit integrators and a horizon of
length zero are refused. -/
theorem C97_refused (o : Ocp K) : build o = none ↔
    0 < o.nsbx ∨ 0 < o.nsbxe ∨ 0 < o.nsbu ∨ 0 < o.nsg ∨ 0 < o.nsge ∨ 0 < o.path.nsphi ∨
    0 < o.term.nsphi ∨ 0 < o.nz ∨ o.explicitDyn = false ∨ o.N = 0 := by
  unfold build
  by_cases hr : refused o = true
  · simp only [hr, if_true, true_iff]
    simp only [refused, Bool.or_eq_true, decide_eq_true_eq, Bool.not_eq_true'] at hr
    tauto
  · simp only [hr, if_false, false_iff, reduceCtorEq, Bool.false_eq_true]
    simp only [refused, Bool.or_eq_true, decide_eq_true_eq, Bool.not_eq_true'] at hr
    tauto

end

/-! ### Examples and counterexamples -/

section Examples

/-- A stage with one bound on the state, one hard and one soft nonlinear constraint. -/
def exStage : Stage ℚ where
  nbx := 1
  idxbx := fun _ => 0
  lbx := fun _ => -5
  ubx := fun _ => 5
  nh := 2
  h := fun _ x _ r => if r = 0 then x 0 else 2 * x 0
  lh := fun _ => 0
  uh := fun _ => 3
  nsh := 1
  idxsh := fun _ => 0
  lsh := fun _ => 0
  ush := fun _ => 0
  nphi := 0
  phi := fun _ _ _ _ => 0
  lphi := fun _ => 0
  uphi := fun _ => 0
  nsphi := 0
  idxsphi := fun _ => 0
  lsphi := fun _ => 0
  usphi := fun _ => 0
  cost := fun _ x _ => x 0 * x 0
  zl := fun _ => 1
  zu := fun _ => 1
  Zl := fun _ => 1
  Zu := fun _ => 1

/-- Two intervals of `x_{i+1} = x_i + u_i`. -/
def exOcp : Ocp ℚ where
  N := 2
  nx := 1
  nu := 1
  nz := 0
  explicitDyn := true
  steps := fun _ => (1, 1)
  f := fun _ _ x u j => x j + u j
  nbu := 1
  idxbu := fun _ => 0
  lbu := fun _ => -1
  ubu := fun _ => 1
  ng := 1
  C := fun _ _ => 1
  D := fun _ _ => 1
  lg := fun _ => -9
  ug := fun _ => 9
  nge := 0
  Ce := fun _ _ => 0
  lge := fun _ => 0
  uge := fun _ => 0
  nsbx := 0
  nsbxe := 0
  nsbu := 0
  nsg := 0
  nsge := 0
  scaling := fun _ => 1
  init := exStage
  path := exStage
  term := exStage

theorem exOcp_at (i : ℕ) : exOcp.at i = exStage := by
  unfold Ocp.at exOcp
  split
  · rfl
  · split <;> rfl

theorem exOcp_proper : Proper exOcp where
  bx := by intro i _ k _; rw [exOcp_at]; exact Nat.zero_lt_succ _
  bxInj := by
    intro i _ k hk k' hk' _
    rw [exOcp_at] at hk hk'
    have : exStage.nbx = 1 := rfl
    omega
  bu := by intro k _; exact Nat.zero_lt_succ _
  buInj := by
    intro k hk k' hk' _
    have : exOcp.nbu = 1 := rfl
    omega
  sh := by intro i _ k _; rw [exOcp_at]; exact Nat.zero_lt_succ _
  shInj := by
    intro i _ k hk k' hk' _
    rw [exOcp_at] at hk hk'
    have : exStage.nsh = 1 := rfl
    omega

example : ∃ n, build exOcp = some n := ⟨_, rfl⟩

/-- The hypotheses of `C97_feasible_partial` hold for the example, and both sides are true at the
point where every variable is `1`. -/
example : ∃ n, build exOcp = some n ∧ exOcp.init.nsphi = 0 ∧
    (∀ i, i ≤ exOcp.N → ∀ k, k < (exOcp.at i).nsh →
      (exOcp.at i).lsh k = 0 ∧ (exOcp.at i).ush k = 0) ∧
    (∀ i, i < exOcp.N → exOcp.f (exOcp.steps i) i = exOcp.f (exOcp.steps 0) i) ∧
    ∃ v, n.Feasible exOcp v := by
  have hz : ∀ i, i ≤ exOcp.N → ∀ k, k < (exOcp.at i).nsh →
      (exOcp.at i).lsh k = 0 ∧ (exOcp.at i).ush k = 0 := by
    intro i _ k _; rw [exOcp_at]; exact ⟨rfl, rfl⟩
  refine ⟨_, rfl, rfl, hz, fun _ _ => rfl,
    fun s => match s with | .x _ _ => 1 | .u _ _ => 0 | _ => 1, ?_⟩
  refine (C97_feasible_partial exOcp _ rfl exOcp_proper rfl hz (fun _ _ => rfl) _).2 ?_
  intro i hi
  have hN : exOcp.N = 2 := rfl
  constructor
  · intro k hk
    rw [exOcp_at]
    norm_num [exStage, traj]
  · intro _ k _
    norm_num [exOcp, traj]
  · intro _ j _
    norm_num [exOcp, traj]
  · intro k hk
    by_cases h : i < exOcp.N
    · simp only [h, if_true, linRow]
      norm_num [exOcp, traj]
    · simp only [h, if_false] at hk
      exact absurd hk (Nat.not_lt_zero _)
  · rw [exOcp_at]
    constructor
    · intro r hr _
      have hr : r < 2 := hr
      interval_cases r <;> norm_num [exStage, traj]
    · intro k hk
      norm_num [exStage, traj]
  · rw [exOcp_at]
    constructor
    · intro r hr; exact absurd hr (Nat.not_lt_zero _)
    · intro r hr; exact absurd hr (Nat.not_lt_zero _)
  · intro k hk
    rw [exOcp_at]
    norm_num [exStage, traj]
  · intro k hk
    rw [exOcp_at] at hk
    exact absurd hk (Nat.not_lt_zero _)

/-- The NLP of the example has the variables and constraints one expects. -/
example : (vars exOcp).w = [.x 0 0, .u 0 0, .sl 0 0, .su 0 0, .x 1 0, .u 1 0, .sl 1 0, .su 1 0,
      .x 2 0, .sl 2 0, .su 2 0] ∧
    (cons exOcp).g = [.dyn 0 0, .lin 0 0, .hl 0 0 0, .hu 0 0 0, .h 0 1,
      .dyn 1 0, .lin 1 0, .hl 1 0 0, .hu 1 0 0, .h 1 1, .hl 2 0 0, .hu 2 0 0, .h 2 1] := by
  decide +kernel

/-- `C97_cost` applies to the example. -/
example : ∃ n, build exOcp = some n ∧
    ∀ x u u', exOcp.term.cost exOcp.N x u = exOcp.term.cost exOcp.N x u' :=
  ⟨_, rfl, fun _ _ _ => rfl⟩

/-- Multipliers of the middle stage of the example: distinct values show the order. -/
example : getLam exOcp ⟨vars exOcp, cons exOcp⟩
    ((vars exOcp).w.map (fun s => match s with
      | .x i _ => -(i : ℚ) | .u i _ => i | .sl _ _ => -7 | .su _ _ => -8))
    ((cons exOcp).g.map (fun c => match c with
      | .lin _ _ => -4 | .hl _ _ _ => -5 | .hu _ _ _ => 6 | .h _ _ => 3 | _ => 100)) 1 =
    some ([0, 1, 4, 5, 0] ++ [1, 0, 0, 6, 3] ++ [7] ++ [8]) := by
  rw [show (vars exOcp).w = wAll exOcp from (vinv exOcp exOcp_proper).p.hw,
    show (cons exOcp).g = gAll exOcp from (cinv exOcp).hg,
    getLam_eq exOcp exOcp_proper _ _ (by decide)]
  decide +kernel

/-- A state with a nonzero lower bound of its slack: `-1 ≤ sl`, that is the constraint may be
tightened. -/
def exSlack : Ocp ℚ := { exOcp with
  init := { exStage with lsh := fun _ => -1 }
  path := { exStage with lsh := fun _ => -1 }
  term := { exStage with lsh := fun _ => -1 } }

/-- **C97 is false for bounds of slacks**: the nonlinear program always uses `0 ≤ sl`, so that a
trajectory that is feasible for the problem given by the user is not feasible for it. -/
theorem C97_slack_bound_false : ∃ (o : Ocp ℚ) (n : Nlp ℚ) (v : Sym → ℚ), build o = some n ∧
    Proper o ∧ Feasible o (traj v) ∧ ¬ n.Feasible o v := by
  have hat : ∀ i, exSlack.at i = { exStage with lsh := fun _ => -1 } := by
    intro i
    unfold Ocp.at exSlack
    split
    · rfl
    · split <;> rfl
  refine ⟨exSlack, _, fun s => match s with
    | .x _ _ => 1 | .u _ _ => 0 | .sl _ _ => -1 | .su _ _ => 0, rfl, ?_, ?_, ?_⟩
  · constructor
    · intro i _ k _; rw [hat]; exact Nat.zero_lt_succ _
    · intro i _ k hk k' hk' _
      rw [hat] at hk hk'
      have : exStage.nbx = 1 := rfl
      simp only at hk hk'
      omega
    · intro k _; exact Nat.zero_lt_succ _
    · intro k hk k' hk' _
      have : exSlack.nbu = 1 := rfl
      omega
    · intro i _ k _; rw [hat]; exact Nat.zero_lt_succ _
    · intro i _ k hk k' hk' _
      rw [hat] at hk hk'
      have : exStage.nsh = 1 := rfl
      simp only at hk hk'
      omega
  · intro i hi
    constructor
    · intro k hk
      rw [hat]
      norm_num [exStage, traj]
    · intro _ k _
      norm_num [exSlack, exOcp, traj]
    · intro _ j _
      norm_num [exSlack, exOcp, traj]
    · intro k hk
      by_cases h : i < exSlack.N
      · simp only [h, if_true, linRow]
        norm_num [exSlack, exOcp, traj]
      · simp only [h, if_false] at hk
        exact absurd hk (Nat.not_lt_zero _)
    · rw [hat]
      constructor
      · intro r hr _
        have hr : r < 2 := hr
        interval_cases r <;> norm_num [exStage, traj]
      · intro k hk
        norm_num [exStage, traj]
    · rw [hat]
      constructor
      · intro r hr; exact absurd hr (Nat.not_lt_zero _)
      · intro r hr; exact absurd hr (Nat.not_lt_zero _)
    · intro k hk
      rw [hat]
      norm_num [exStage, traj]
    · intro k hk
      rw [hat] at hk
      exact absurd hk (Nat.not_lt_zero _)
  · rintro ⟨⟨_, _, h⟩, _⟩
    have := (h 2 (-1) (some 0) none (by decide +kernel) (by decide +kernel)
      (by decide +kernel)).1 0 rfl
    norm_num at this

/-- A horizon of two intervals with different numbers of integrator steps: `x_{i+1} = x_i + steps`.
-/
def exSteps : Ocp ℚ := { exOcp with
  steps := fun i => (i + 1, 1)
  f := fun s _ x _ j => x j + s.1
  ng := 0
  nbu := 0
  init := { exStage with nh := 0, nsh := 0, nbx := 0 }
  path := { exStage with nh := 0, nsh := 0, nbx := 0 }
  term := { exStage with nh := 0, nsh := 0, nbx := 0 } }

/-- **C97 is false for different integrator settings**: the dynamics of every interval use the
numbers of steps and stages of the first interval. -/
theorem C97_steps_false : ∃ (o : Ocp ℚ) (n : Nlp ℚ) (v : Sym → ℚ), build o = some n ∧
    Proper o ∧ Feasible o (traj v) ∧ ¬ n.Feasible o v := by
  have hat : ∀ i, exSteps.at i = { exStage with nh := 0, nsh := 0, nbx := 0 } := by
    intro i
    unfold Ocp.at exSteps
    split
    · rfl
    · split <;> rfl
  refine ⟨exSteps, _, fun s => match s with
    | .x 0 _ => 0 | .x 1 _ => 1 | .x _ _ => 3 | _ => 0, rfl, ?_, ?_, ?_⟩
  · constructor
    · intro i _ k hk; rw [hat] at hk; exact absurd hk (Nat.not_lt_zero _)
    · intro i _ k hk; rw [hat] at hk; exact absurd hk (Nat.not_lt_zero _)
    · intro k hk; exact absurd hk (Nat.not_lt_zero _)
    · intro k hk; exact absurd hk (Nat.not_lt_zero _)
    · intro i _ k hk; rw [hat] at hk; exact absurd hk (Nat.not_lt_zero _)
    · intro i _ k hk; rw [hat] at hk; exact absurd hk (Nat.not_lt_zero _)
  · intro i hi
    have hi : i ≤ 2 := hi
    constructor
    · intro k hk; rw [hat] at hk; exact absurd hk (Nat.not_lt_zero _)
    · intro _ k hk; exact absurd hk (Nat.not_lt_zero _)
    · intro hi' j _
      have hi' : i < 2 := hi'
      interval_cases i <;> norm_num [exSteps, exOcp, traj]
    · intro k hk
      split at hk <;> exact absurd hk (Nat.not_lt_zero _)
    · rw [hat]
      constructor
      · intro r hr; exact absurd hr (Nat.not_lt_zero _)
      · intro r hr; exact absurd hr (Nat.not_lt_zero _)
    · rw [hat]
      constructor
      · intro r hr; exact absurd hr (Nat.not_lt_zero _)
      · intro r hr; exact absurd hr (Nat.not_lt_zero _)
    · intro k hk; rw [hat] at hk; exact absurd hk (Nat.not_lt_zero _)
    · intro k hk; rw [hat] at hk; exact absurd hk (Nat.not_lt_zero _)
  · rintro ⟨_, _, _, h⟩
    have := (h 1 1 (some 0) (some 0) (by decide +kernel) (by decide +kernel)
      (by decide +kernel)).2 0 rfl
    norm_num at this

/-- A soft convex-over-nonlinear constraint at the initial stage. -/
def exPhi : Ocp ℚ := { exSteps with
  steps := fun _ => (1, 1)
  init := { exStage with
    nh := 0, nsh := 0, nbx := 0, nphi := 1, phi := fun _ x _ _ => x 0, uphi := fun _ => 1, nsphi := 1 } }

/-- **C97 is false for soft convex-over-nonlinear constraints of the initial stage**: they are not
refused, unlike those of later stages, and are treated as hard constraints. -/
theorem C97_phi0_false : ∃ (o : Ocp ℚ) (n : Nlp ℚ) (v : Sym → ℚ), build o = some n ∧
    Proper o ∧ Feasible o (traj v) ∧ ¬ n.Feasible o v := by
  have hat : ∀ i, exPhi.at i = if i = 0 then exPhi.init else
      { exStage with nh := 0, nsh := 0, nbx := 0 } := by
    intro i
    unfold Ocp.at
    by_cases h : i = 0
    · simp [h]
    · simp only [h, if_false]
      split <;> rfl
  refine ⟨exPhi, _, fun s => match s with
    | .x i _ => 5 + i | .su _ _ => 4 | _ => 0, rfl, ?_, ?_, ?_⟩
  · constructor
    · intro i _ k hk; rw [hat] at hk; split at hk <;> exact absurd hk (Nat.not_lt_zero _)
    · intro i _ k hk; rw [hat] at hk; split at hk <;> exact absurd hk (Nat.not_lt_zero _)
    · intro k hk; exact absurd hk (Nat.not_lt_zero _)
    · intro k hk; exact absurd hk (Nat.not_lt_zero _)
    · intro i _ k hk; rw [hat] at hk; split at hk <;> exact absurd hk (Nat.not_lt_zero _)
    · intro i _ k hk; rw [hat] at hk; split at hk <;> exact absurd hk (Nat.not_lt_zero _)
  · intro i hi
    have hi : i ≤ 2 := hi
    constructor
    · intro k hk; rw [hat] at hk; split at hk <;> exact absurd hk (Nat.not_lt_zero _)
    · intro _ k hk; exact absurd hk (Nat.not_lt_zero _)
    · intro _ j _
      norm_num [exPhi, exSteps, exOcp, traj]
      ring
    · intro k hk
      split at hk <;> exact absurd hk (Nat.not_lt_zero _)
    · rw [hat]
      constructor
      · intro r hr; split at hr <;> exact absurd hr (Nat.not_lt_zero _)
      · intro r hr; split at hr <;> exact absurd hr (Nat.not_lt_zero _)
    · rw [hat]
      constructor
      · intro r hr hk
        by_cases h : i = 0
        · simp only [h, if_true] at hr hk
          have hr : r < 1 := hr
          have hk' := hk 0 (by decide)
          have : r = 0 := by omega
          subst this
          exact absurd rfl hk'
        · simp only [h, if_false] at hr
          exact absurd hr (Nat.not_lt_zero _)
      · intro k hk
        by_cases h : i = 0
        · subst h
          norm_num [exPhi, exStage, traj]
        · simp only [h, if_false] at hk
          exact absurd hk (Nat.not_lt_zero _)
    · intro k hk; rw [hat] at hk; split at hk <;> exact absurd hk (Nat.not_lt_zero _)
    · intro k hk
      rw [hat] at hk ⊢
      by_cases h : i = 0
      · subst h
        norm_num [exPhi, exStage, traj]
      · simp only [h, if_false] at hk
        exact absurd hk (Nat.not_lt_zero _)
  · rintro ⟨_, _, _, h⟩
    have := (h 1 5 (some 0) (some 1) (by decide +kernel) (by decide +kernel)
      (by decide +kernel)).2 1 rfl
    norm_num at this

/-- `C97_flat_false`, `C97_lh_false` and `C97_hessian` concern the example: it has slacks. -/
example : 0 < (exOcp.at 0).soft ∧ 0 < (exOcp.at 0).nsh ∧ 0 < exOcp.ng := by decide

/-- The hypotheses of `C97_flat_partial` and `C97_lh_partial` hold for `exSteps`. -/
example : ∃ n, build exSteps = some n ∧ (∀ i, i ≤ 2 → (exSteps.at i).soft = 0) ∧
    buildHess exSteps = some n :=
  ⟨_, rfl, by decide, rfl⟩

/-- Writing the state of stage 1 of the example. -/
example : setP ⟨vars exOcp, cons exOcp⟩ .x ((vars exOcp).w.map (fun _ => (0 : ℚ))) 1 [3] =
    some [0, 0, 0, 0, 3, 0, 0, 0, 0, 0, 0] := by decide +kernel

end Examples

end Acados.CasadiNlp
