import Verif.Lemmas.ZoroGains
import Verif.Props.Zoro
import Mathlib.Algebra.BigOperators.Fin
/-!
# C80: Riccati feedback gains of the zero-order robust optimisation update
-/
namespace Acados.Zoro
open Matrix
set_option linter.unusedSectionVars false
variable {K : Type*} [Field K] [LinearOrder K] [IsStrictOrderedRing K] {d : Dims}

section
variable {sq : K → K} {ch : Chol K d} {ds : Desc K d} {rd : RDesc K d} {l : Lin K d} {q : QpB K d} {data : List K}
  {m m' : Mem K d} {rm rm' : RMem K d} {n n0 n' : Nlp K d} {out : Nat → K}

theorem rows_ok (h : RowsFine ds rd n0) : RowsOk ds rd n0 := by
  have a : ∀ p ∈ rowsOf ds, p.2 ∈ ds.loT ++ ds.hiT := fun p hp => by
    rcases (mem_rowsOf ds p).mp hp with h | h
    · exact List.mem_append_left _ h.2
    · exact List.mem_append_right _ h.2
  have b : ∀ p ∈ rowsOfE ds, p.2 ∈ ds.loTE ++ ds.hiTE := fun p hp => by
    rcases (mem_rowsOfE ds p).mp hp with h | h
    · exact List.mem_append_left _ h.2
    · exact List.mem_append_right _ h.2
  refine ⟨fun p hp => h.g _ (a p hp), fun p hp => h.gE _ (b p hp), fun hm p hp => h.h hm _ (a p hp),
    fun hm p hp i hi => h.idx hm i ?_⟩
  rw [← hi]; exact b p hp

theorem readData_bsq (str : Bool) : (readData ds str data m).bsq = m.bsq ∧ (readData ds str data m).bsqE = m.bsqE := by
  unfold readData
  constructor <;> (repeat' split) <;> rfl

/-- C80: the gains of stages 1 to N-1 are the optimal feedback of the linear-quadratic problem: from every stage
and every state, the linear feedback costs no more than any other choice of the inputs, and every other choice
costs more.  The cost is the constant quadratic cost and, in the barrier modes, the squares of the changes of the
tightened constraints, weighted with the slacks and with the back-offs of the previous update.
Partial: restricted to the rows of `RowsFine` (`C80_h_rows_false`, `C80_terminal_idx_false`). -/
theorem C80_gain_optimal_partial (hch : CholOk ch) (hc : CostOk rd) (hf : RowsFine ds rd n0)
    (hr : ReachR sq ch ds rd n0 m rm) (hs : rd.mode ≠ .const → SlackPos sq ds q m.bsq m.bsqE) (hN : 0 < d.N)
    (h : updateRic sq ch ds rd l q data m rm n = (.ok m' n' out, rm'))
    (k : Nat) (h1 : 1 ≤ k) (h2 : k ≤ d.N) (x xs : Nat → Fin d.nx → K) (u : Nat → Fin d.nu → K)
    (hd : Dyn l k x u) (hds : Dyn l k xs fun j => -(rm'.gain j *ᵥ xs j)) (h0 : x k = xs k) :
    costFrom (ricCost sq ds rd n0 l q m.bsq) (ricCostE sq ds rd n0 l q m.bsqE) k xs (fun j => -(rm'.gain j *ᵥ xs j))
      ≤ costFrom (ricCost sq ds rd n0 l q m.bsq) (ricCostE sq ds rd n0 l q m.bsqE) k x u ∧
    (costFrom (ricCost sq ds rd n0 l q m.bsq) (ricCostE sq ds rd n0 l q m.bsqE) k xs (fun j => -(rm'.gain j *ᵥ xs j))
      = costFrom (ricCost sq ds rd n0 l q m.bsq) (ricCostE sq ds rd n0 l q m.bsqE) k x u →
      ∀ j, k ≤ j → j < d.N → u j = -(rm'.gain j *ᵥ x j)) := by
  obtain ⟨str, -, -, e, -⟩ := updateRic_ok h
  obtain ⟨e1, e2⟩ := readData_bsq (ds := ds) (data := data) (m := m) str
  have hok := rows_ok hf
  obtain ⟨-, -, M, hM, hv⟩ := riccati_spec sq ch ds rd (readData ds str data m) l q n0 hch hc hok
    (by rw [e1, e2]; exact hs) hN rm (reachR_inv hok hr).2
  rw [← e] at hv
  obtain ⟨P, hP⟩ := hv k h1 h2
  have p1 := hP x u hd
  have p2 := hP xs _ hds
  rw [e1, e2] at p1 p2
  have z : ∑ j ∈ Finset.Ico k d.N, quad (M j) (-(rm'.gain j *ᵥ xs j) + rm'.gain j *ᵥ xs j) = 0 :=
    Finset.sum_eq_zero fun j _ => by rw [neg_add_cancel, quad_zero_vec]
  rw [z, add_zero, ← h0] at p2
  have nn : ∀ j ∈ Finset.Ico k d.N, 0 ≤ quad (M j) (u j + rm'.gain j *ᵥ x j) := fun j hj => by
    by_cases hz : u j + rm'.gain j *ᵥ x j = 0
    · rw [hz, quad_zero_vec]
    · obtain ⟨a, b⟩ := Finset.mem_Ico.mp hj
      exact (hM j (by omega) b _ hz).le
  have hsum := Finset.sum_nonneg nn
  refine ⟨by rw [p1, p2]; linarith, fun heq j a b => ?_⟩
  rw [p1, p2] at heq
  have h3 : ∑ j ∈ Finset.Ico k d.N, quad (M j) (u j + rm'.gain j *ᵥ x j) = 0 := by linarith
  have h4 := (Finset.sum_eq_zero_iff_of_nonneg nn).mp h3 j (Finset.mem_Ico.mpr ⟨a, b⟩)
  by_contra hne
  have : u j + rm'.gain j *ᵥ x j ≠ 0 := fun hz => hne (eq_neg_of_add_eq_zero_left hz)
  exact absurd h4 (ne_of_gt (hM j (by omega) b _ this))

/-- C80: with constant cost no restriction on the kind of the rows is needed, apart from the general linear rows
with which the generated code does not compile -/
theorem C80_const_optimal (hch : CholOk ch) (hc : CostOk rd) (hm : rd.mode = .const)
    (hg : ∀ r ∈ ds.loT ++ ds.hiT, r.kind ≠ .g) (hgE : ∀ r ∈ ds.loTE ++ ds.hiTE, r.kind ≠ .g)
    (hr : ReachR sq ch ds rd n0 m rm) (hN : 0 < d.N)
    (h : updateRic sq ch ds rd l q data m rm n = (.ok m' n' out, rm'))
    (k : Nat) (h1 : 1 ≤ k) (h2 : k ≤ d.N) (x xs : Nat → Fin d.nx → K) (u : Nat → Fin d.nu → K)
    (hd : Dyn l k x u) (hds : Dyn l k xs fun j => -(rm'.gain j *ᵥ xs j)) (h0 : x k = xs k) :
    costFrom (fun _ => lqCost rd.Q rd.R rd.S) (quad rd.Qe) k xs (fun j => -(rm'.gain j *ᵥ xs j))
      ≤ costFrom (fun _ => lqCost rd.Q rd.R rd.S) (quad rd.Qe) k x u ∧
    (costFrom (fun _ => lqCost rd.Q rd.R rd.S) (quad rd.Qe) k xs (fun j => -(rm'.gain j *ᵥ xs j))
      = costFrom (fun _ => lqCost rd.Q rd.R rd.S) (quad rd.Qe) k x u →
      ∀ j, k ≤ j → j < d.N → u j = -(rm'.gain j *ᵥ x j)) := by
  have e1 : ricCost sq ds rd n0 l q m.bsq = fun _ => lqCost rd.Q rd.R rd.S := by
    funext k x u; exact ricCost_const sq ds rd n0 l q m.bsq k x u hm
  have e2 : ricCostE sq ds rd n0 l q m.bsqE = quad rd.Qe := by
    funext x; exact ricCostE_const sq ds rd n0 l q m.bsqE x hm
  have := C80_gain_optimal_partial hch hc ⟨hg, hgE, fun h => absurd hm h, fun h => absurd hm h⟩ hr
    (fun h => absurd hm h) hN h k h1 h2 x xs u hd hds h0
  rw [e1, e2] at this
  exact this

/-- C80: there is no feedback at stage 0 -/
theorem C80_gain_zero (h : updateRic sq ch ds rd l q data m rm n = (.ok m' n' out, rm')) : rm'.gain 0 = 0 := by
  obtain ⟨str, -, -, e, -⟩ := updateRic_ok h
  rw [e]
  rfl

/-- C80: robust satisfaction (see `C79_robust_partial`) holds for the closed loop with the computed gains -/
theorem C80_robust_partial (hf : RowsFine ds rd n0) (hsq : SqrtOk sq) (heps : 0 ≤ ds.eps)
    (hr : ReachR sq ch ds rd n0 m rm) (hN : 0 < d.N)
    (h : updateRic sq ch ds rd l q data m rm n = (.ok m' n' out, rm')) (hw : NoiseOk ds data) (z : Dist K d)
    (hl : Loop l rm'.gain ds.G z)
    (ha : Admissible (modeOf ds) ds.gamma (m'.P 0) (noiseAt ds m'.W data) m'.Sigma z) :
    (∀ k < d.N, ∀ r : Row d, (k = 0 → r.kind = .bu) → ∀ v,
      (r ∈ ds.loT → n'.lo k r ≤ v → n0.lo 1 r ≤ rowAt n0 l k v (z.e k) (-(rm'.gain k *ᵥ z.e k)) r)
      ∧ (r ∈ ds.hiT → v ≤ n'.hi k r → rowAt n0 l k v (z.e k) (-(rm'.gain k *ᵥ z.e k)) r ≤ n0.hi 1 r))
    ∧ (∀ r : RowE d, ∀ v,
      (r ∈ ds.loTE → n'.loE r ≤ v → n0.loE r ≤ rowAtE n0 l v (z.e d.N) r)
      ∧ (r ∈ ds.hiTE → v ≤ n'.hiE r → rowAtE n0 l v (z.e d.N) r ≤ n0.hiE r)) := by
  obtain ⟨str, -, -, -, hu⟩ := updateRic_ok h
  obtain ⟨a, b⟩ := C79_robust_partial hsq heps (reachR_inv (rows_ok hf) hr).1 hN hu hw z hl ha
  refine ⟨a, fun r v => ⟨fun hm => ?_, fun hm => ?_⟩⟩
  · exact (b r (fun hk => absurd hk (hf.gE r (List.mem_append_left _ hm))) v).1 hm
  · exact (b r (fun hk => absurd hk (hf.gE r (List.mem_append_right _ hm))) v).2 hm

/-- C80: outside of one case the update does what C79 says with these gains, and the two have the same outcome -/
theorem C80_accepts (h : ∀ i : Fin d.nbxe, RowE.bx i ∈ ds.loTE ++ ds.hiTE → (i : Nat) < d.nbx)
    (hs : streaming ds data ≠ none) :
    ∃ rm', updateRic sq ch ds rd l q data m rm n = (updateWith sq ds l rm'.gain data m n, rm') := by
  have hu : riccatiUb ds = false := by
    rw [Bool.eq_false_iff]
    intro hb
    obtain ⟨p, hp, hb⟩ := List.any_eq_true.mp hb
    have hmem : p.2 ∈ ds.loTE ++ ds.hiTE := by
      rcases (mem_rowsOfE ds p).mp hp with h | h
      · exact List.mem_append_left _ h.2
      · exact List.mem_append_right _ h.2
    obtain ⟨b, r⟩ := p
    cases r with
    | bx i => simp [h i hmem] at hb
    | g i => simp at hb
    | h i => simp at hb
  unfold updateRic
  cases he : streaming ds data with
  | none => exact absurd he hs
  | some str => simp only [hu, Bool.false_eq_true, if_false]; exact ⟨_, rfl⟩

end

/-! ### a case that meets the hypotheses -/

/-- Cholesky factorisation and solves for one input -/
noncomputable def chE (d : Dims) (_h : d.nu = 1) : Chol ℝ d where
  potrf := fun M i j => Real.sqrt (M i j)
  solveN := fun L Y i j => Y i j / L i i
  solveT := fun L Y i j => Y i j / L i i

theorem chE_ok (d : Dims) (h : d.nu = 1) : CholOk (chE d h) := by
  have : Unique (Fin d.nu) := by rw [h]; infer_instance
  intro M _ hp
  have hpos : 0 < M default default := by
    have := hp (fun _ => 1) (fun h => by simpa using congrFun h default)
    simpa [quad, dotProduct, mulVec] using this
  have hs : Real.sqrt (M default default) ≠ 0 := (Real.sqrt_pos.mpr hpos).ne'
  refine ⟨?_, fun Y => ⟨?_, ?_⟩⟩
  · ext i j
    rw [Unique.eq_default i, Unique.eq_default j]
    show ∑ k, Real.sqrt (M default k) * Real.sqrt (M default k) = _
    rw [Fintype.sum_unique, Real.mul_self_sqrt hpos.le]
  · ext i j
    rw [Unique.eq_default i]
    show ∑ k, Real.sqrt (M default k) * (Y k j / Real.sqrt (M k k)) = _
    rw [Fintype.sum_unique]
    field_simp
  · ext i j
    rw [Unique.eq_default i]
    show ∑ k, Real.sqrt (M k default) * (Y k j / Real.sqrt (M k k)) = _
    rw [Fintype.sum_unique]
    field_simp

theorem chE_solve (d : Dims) (h : d.nu = 1) (M : Mat ℝ d.nu d.nu) (Y : Mat ℝ d.nu d.nx) (i : Fin d.nu) (j : Fin d.nx)
    (hp : 0 ≤ M i i) :
    (chE d h).solveT ((chE d h).potrf M) ((chE d h).solveN ((chE d h).potrf M) Y) i j = Y i j / M i i := by
  show Y i j / Real.sqrt (M i i) / Real.sqrt (M i i) = _
  rw [div_div, Real.mul_self_sqrt hp]

/-- cost `u^2` on the path and `x^2` at the end -/
def rdE (mode : RMode) : RDesc ℝ dE where
  mode := mode
  Q := 0
  R := fun _ _ => 1
  S := 0
  Qe := fun _ _ => 1
  tau := 1

def qE : QpB ℝ dE := ⟨fun _ _ => -1, fun _ _ => 1, fun _ => -1, fun _ => 1⟩

theorem quadE1 (P : Mat ℝ 1 1) (c : Fin 1 → ℝ) : quad P c = P 0 0 * c 0 ^ 2 := by
  simp [quad, dotProduct, mulVec]; ring

theorem costE (mode : RMode) : CostOk (rdE mode) := by
  refine ⟨transpose_zero, rfl, rfl, fun x u => ?_, fun u hu => ?_, fun x => ?_, zero_le_one⟩
  · have e : lqCost (rdE mode).Q (rdE mode).R (rdE mode).S x u = (u (0 : Fin 1)) ^ 2 := by
      have : quad (rdE mode).R u = (rdE mode).R (0 : Fin 1) (0 : Fin 1) * u (0 : Fin 1) ^ 2 := quadE1 _ _
      unfold lqCost
      rw [this]
      have e1 : (rdE mode).R (0 : Fin 1) (0 : Fin 1) = 1 := rfl
      have e2 : (rdE mode).Q = 0 := rfl
      have e3 : (rdE mode).S = 0 := rfl
      rw [e1, e2, e3]
      simp [quad]
    rw [e]; positivity
  · have : quad (rdE mode).R u = (rdE mode).R (0 : Fin 1) (0 : Fin 1) * u (0 : Fin 1) ^ 2 := quadE1 _ _
    rw [this]
    have hu0 : u (0 : Fin 1) ≠ 0 := fun h => hu (by funext i; rw [show i = (0 : Fin 1) from Subsingleton.elim (α := Fin 1) _ _, h]; rfl)
    have : (rdE mode).R (0 : Fin 1) (0 : Fin 1) = 1 := rfl
    rw [this]; positivity
  · have : quad (rdE mode).Qe x = (rdE mode).Qe (0 : Fin 1) (0 : Fin 1) * x (0 : Fin 1) ^ 2 := quadE1 _ _
    rw [this]
    have : (rdE mode).Qe (0 : Fin 1) (0 : Fin 1) = 1 := rfl
    rw [this]; positivity

/-- C80: the hypotheses of `C80_gain_optimal_partial` hold in a barrier mode, with bounds that are tightened on
both sides -/
example : CholOk (chE dE rfl) ∧ CostOk (rdE .barrier2) ∧ RowsFine (dsE ℝ) (rdE .barrier2) (nE ℝ) ∧
    ReachR Real.sqrt (chE dE rfl) (dsE ℝ) (rdE .barrier2) (nE ℝ) (init (dsE ℝ) (nE ℝ) 1) (initR (dsE ℝ) (rdE .barrier2) (nE ℝ)) ∧
    SlackPos Real.sqrt (dsE ℝ) qE (init (dsE ℝ) (nE ℝ) 1).bsq (init (dsE ℝ) (nE ℝ) 1).bsqE ∧ 0 < dE.N ∧
    ∃ m' n' out rm', updateRic Real.sqrt (chE dE rfl) (dsE ℝ) (rdE .barrier2) (lE ℝ) qE [] (init (dsE ℝ) (nE ℝ) 1)
      (initR (dsE ℝ) (rdE .barrier2) (nE ℝ)) (nE ℝ) = (.ok m' n' out, rm') := by
  refine ⟨chE_ok dE rfl, costE _, ⟨?_, ?_, fun _ => ?_, fun _ i _ => ⟨i.2, Subsingleton.elim (α := Fin 1) _ _⟩⟩, .init 1, ?_, by decide, ?_⟩
  · intro r hr; simp [dsE] at hr; rcases hr with rfl | rfl <;> decide
  · intro r hr; simp [dsE] at hr; rw [hr]; decide
  · intro r hr; simp [dsE] at hr; rcases hr with rfl | rfl <;> decide
  · have e : ∀ k r, (init (dsE ℝ) (nE ℝ) 1).bsq k r = 1 := fun _ _ => rfl
    have e' : ∀ r, (init (dsE ℝ) (nE ℝ) 1).bsqE r = 1 := fun _ => rfl
    refine ⟨fun k _ _ => ⟨fun r _ => ?_, fun r _ => ?_⟩, fun r _ => ?_, fun r _ => ?_⟩ <;>
      simp [e, e', qE, slackLo, slackHi]
  · obtain ⟨rm', h⟩ := C80_accepts (sq := Real.sqrt) (ch := chE dE rfl) (ds := dsE ℝ) (rd := rdE .barrier2) (l := lE ℝ)
      (q := qE) (data := []) (m := init (dsE ℝ) (nE ℝ) 1) (rm := initR (dsE ℝ) (rdE .barrier2) (nE ℝ)) (n := nE ℝ)
      (fun i _ => i.2) (by decide)
    exact ⟨_, _, _, rm', h.trans (by rw [update_ok (str := false) rfl rfl rfl])⟩

/-! ### where the full statement fails -/

/-- one state, one input with a bound, one nonlinear row -/
def dH : Dims := ⟨2, 1, 1, 1, 0, 1, 0, 0, 1, 0, 0, 0⟩

def dsH : Desc ℝ dH where
  gamma := 1
  eps := 0
  barrier := true
  mode := .none
  sensP := false
  P0 := fun _ _ => 1
  W := fun _ _ => 0
  G := fun _ _ => 1
  Sigma := 0
  Kfb := 0
  loT := [.bu ⟨0, by decide⟩, .h ⟨0, by decide⟩]
  hiT := []
  loTE := []
  hiTE := []
  inP0diag := false
  inP0 := false
  inWdiag := false
  inWadd := false
  inSdiag := false
  inS := false
  outP := false
  outT := false

def nH : Nlp ℝ dH := ⟨fun _ => ⟨0, by decide⟩, Fin.elim0, Fin.elim0, 0, 0, 0, fun _ _ => 0, fun _ _ => 0, fun _ => 0, fun _ => 0⟩
def lH : Lin ℝ dH := ⟨fun _ _ _ => 1, fun _ _ _ => 1, fun _ => 0, fun _ => 0, fun _ => 0, 0⟩
def rdH : RDesc ℝ dH := ⟨.barrier1, 0, fun _ _ => 1, 0, fun _ _ => 1, 1⟩
def qH : QpB ℝ dH := ⟨fun _ _ => 0, fun _ _ => 0, fun _ => 0, fun _ => 0⟩

theorem gainH (sc : Bool) : (riccati Real.sqrt (chE dH rfl) dsH rdH (readData dsH sc [] (init dsH nH 1)) lH qH (initR dsH rdH nH)).gain 1
    = fun _ _ => 1 / 2 := by
  generalize readData dsH sc [] (init dsH nH 1) = m
  have hP : ∀ i j, (quadTerminal Real.sqrt dsH rdH m lH qH (initR dsH rdH nH)).Q i j = 1 := fun i j => by
    show (∑ r ∈ Finset.range 0, _) + (1 : ℝ) = 1
    simp
  have hD : ((quadTerminal Real.sqrt dsH rdH m lH qH (initR dsH rdH nH)).dct 1).u = 0 := rfl
  have e : ∀ rm, rm = quadTerminal Real.sqrt dsH rdH m lH qH (initR dsH rdH nH) →
      (riccati Real.sqrt (chE dH rfl) dsH rdH m lH qH (initR dsH rdH nH)).gain 1
      = (chE dH rfl).solveT ((chE dH rfl).potrf ((lH.B 1)ᵀ * rm.Q * lH.B 1 + (quadStage Real.sqrt dsH rdH m lH qH 1 rm).R))
        ((chE dH rfl).solveN ((chE dH rfl).potrf ((lH.B 1)ᵀ * rm.Q * lH.B 1 + (quadStage Real.sqrt dsH rdH m lH qH 1 rm).R))
          ((lH.B 1)ᵀ * rm.Q * lH.A 1 + (quadStage Real.sqrt dsH rdH m lH qH 1 rm).S)) := by
    rintro _ rfl; rfl
  replace e := e _ rfl
  rw [e]
  clear e
  generalize quadTerminal Real.sqrt dsH rdH m lH qH (initR dsH rdH nH) = rm at *
  have hR : ∀ i j, (quadStage Real.sqrt dsH rdH m lH qH 1 rm).R i j = 1 := by
    intro i j
    show (∑ r ∈ Finset.range 2, _) + (1 : ℝ) = 1
    rw [Finset.sum_range_succ, Finset.sum_range_one]
    simp [rowsOf, dsH, ofKind, Row.kind, overRows, quadRow, hD, Lin.Dh, lH]
  have hS : ∀ i j, (quadStage Real.sqrt dsH rdH m lH qH 1 rm).S i j = 0 := by
    intro i j
    show (∑ r ∈ Finset.range 2, _) + (0 : ℝ) = 0
    rw [Finset.sum_range_succ, Finset.sum_range_one]
    simp [rowsOf, dsH, ofKind, Row.kind, overRows, quadRow, hD, Lin.Dh, lH]
  have s1 : ∀ f : Fin dH.nx → ℝ, ∑ i, f i = f ⟨0, by decide⟩ := fun f => sum1 f
  have m2 : ∀ i j, ((lH.B 1)ᵀ * rm.Q * lH.B 1 + (quadStage Real.sqrt dsH rdH m lH qH 1 rm).R) i j = 2 := by
    intro i j
    rw [add_apply, hR, mul_apply, s1, mul_apply, s1, hP]
    show (1 : ℝ) * 1 * 1 + 1 = 2
    norm_num
  have m1 : ∀ i j, ((lH.B 1)ᵀ * rm.Q * lH.A 1 + (quadStage Real.sqrt dsH rdH m lH qH 1 rm).S) i j = 1 := by
    intro i j
    rw [add_apply, hS, mul_apply, s1, mul_apply, s1, hP]
    show (1 : ℝ) * 1 * 1 + 0 = 1
    norm_num
  funext i j
  rw [chE_solve dH rfl _ _ i j (by rw [m2]; norm_num), m1, m2]

/-- C80: false in general with nonlinear rows.  The gradient of a nonlinear row with respect to the input is written
to the first row of the matrix of gradients, not to its own row: here the nonlinear row does not depend on the
input, which removes the weight of the bound on the input.  The gain is 1/2; the optimal one is 1/3. -/
theorem C80_h_rows_false : ¬ ∀ (d : Dims) (sq : ℝ → ℝ) (ch : Chol ℝ d) (ds : Desc ℝ d) (rd : RDesc ℝ d) (l : Lin ℝ d)
    (q : QpB ℝ d) (data : List ℝ) (m m' : Mem ℝ d) (rm rm' : RMem ℝ d) (n n0 n' : Nlp ℝ d) (out : Nat → ℝ),
    CholOk ch → CostOk rd → compiles ds = true → (∀ i : Fin d.nbxe, ∃ h : i < d.nbx, n0.idxbx ⟨i, h⟩ = n0.idxbxe i) →
    ReachR sq ch ds rd n0 m rm → SlackPos sq ds q m.bsq m.bsqE → 0 < d.N →
    updateRic sq ch ds rd l q data m rm n = (.ok m' n' out, rm') →
    ∀ k, 1 ≤ k → k ≤ d.N → ∀ (x xs : Nat → Fin d.nx → ℝ) (u : Nat → Fin d.nu → ℝ),
    Dyn l k x u → Dyn l k xs (fun j => -(rm'.gain j *ᵥ xs j)) → x k = xs k →
    costFrom (ricCost sq ds rd n0 l q m.bsq) (ricCostE sq ds rd n0 l q m.bsqE) k xs (fun j => -(rm'.gain j *ᵥ xs j))
      ≤ costFrom (ricCost sq ds rd n0 l q m.bsq) (ricCostE sq ds rd n0 l q m.bsqE) k x u := by
  intro h
  obtain ⟨rm', hu⟩ := C80_accepts (sq := Real.sqrt) (ch := chE dH rfl) (ds := dsH) (rd := rdH) (l := lH)
      (q := qH) (data := []) (m := init dsH nH 1) (rm := initR dsH rdH nH) (n := nH)
      (fun i _ => i.elim0) (by decide)
  have hu2 := hu.trans (by rw [update_ok (str := false) rfl rfl rfl])
  obtain ⟨str, -, -, e, -⟩ := updateRic_ok hu2
  have hg : rm'.gain 1 = fun _ _ => 1 / 2 := by rw [e]; exact gainH str
  have hc : CostOk rdH := by
    have := costE .barrier1
    exact ⟨this.symQ, this.symR, this.symQe, this.psd, this.pd, this.psdE, this.tau⟩
  have hs : SlackPos Real.sqrt dsH qH (init dsH nH 1).bsq (init dsH nH 1).bsqE := by
    have e : ∀ k r, (init dsH nH 1).bsq k r = 1 := fun _ _ => rfl
    have e' : ∀ r, (init dsH nH 1).bsqE r = 1 := fun _ => rfl
    refine ⟨fun k _ _ => ⟨fun r _ => ?_, fun r _ => ?_⟩, fun r _ => ?_, fun r _ => ?_⟩ <;>
      simp [e, e', qH, slackLo, slackHi]
  have := h dH Real.sqrt (chE dH rfl) dsH rdH lH qH [] _ _ _ rm' nH nH _ _ (chE_ok dH rfl) hc rfl (fun i => i.elim0)
    (.init 1) hs (by decide) hu2 1 le_rfl (by decide)
    (fun j _ => if j = 1 then 1 else 2 / 3) (fun j _ => if j = 1 then 1 else 1 / 2) (fun _ _ => -(1 / 3)) ?_ ?_ ?_
  · have s1 : ∀ f : Fin dH.nx → ℝ, ∑ i, f i = f ⟨0, by decide⟩ := fun f => sum1 f
    have s2 : ∀ f : Fin dH.nu → ℝ, ∑ i, f i = f ⟨0, by decide⟩ := fun f => sum1 f
    have e0 : ∀ k r, (init dsH nH 1).bsq k r = 1 := fun _ _ => rfl
    have e1 : Finset.Ico 1 dH.N = {1} := by decide
    have e2 : dH.N = 2 := rfl
    simp only [costFrom, e1, Finset.sum_singleton] at this
    simp only [ricCost, ricCostE, lqCost, quad, dotProduct, mulVec, s1, s2, hg, e2, e0] at this
    simp [dsH, rdH, qH, slackLo, slackHi, barrierWeight, rowAt, lH, dotProduct] at this
    have e3 : ∀ i : Fin dH.nu, (mulVec (fun _ _ => 1 / 2 : Mat ℝ dH.nu dH.nx) fun _ => 1) i = 1 / 2 := fun i => by
      show ∑ _j : Fin 1, (1 : ℝ) / 2 * 1 = 1 / 2
      rw [sum1]; norm_num
    norm_num [e3] at this
  · intro j h1 h2
    obtain rfl : j = 1 := by have : j < 2 := h2; omega
    funext i
    show (2 : ℝ) / 3 = ∑ _j : Fin 1, 1 * 1 + ∑ _j : Fin 1, 1 * -(1 / 3)
    rw [sum1, sum1]; norm_num
  · intro j h1 h2
    obtain rfl : j = 1 := by have : j < 2 := h2; omega
    funext i
    simp only [hg]
    show (1 : ℝ) / 2 = ∑ _j : Fin 1, 1 * 1 + ∑ _j : Fin 1, 1 * -(∑ _j : Fin 1, 1 / 2 * 1)
    rw [sum1, sum1, sum1]; norm_num
  · rfl

/-- two states, a bound on the first one on the path and on the second one at the end -/
def dT : Dims := ⟨2, 2, 1, 1, 0, 0, 1, 0, 0, 1, 0, 0⟩

def dsT : Desc ℝ dT where
  gamma := 1
  eps := 0
  barrier := true
  mode := .none
  sensP := false
  P0 := fun _ _ => 1
  W := fun _ _ => 0
  G := fun _ _ => 1
  Sigma := 0
  Kfb := 0
  loT := []
  hiT := []
  loTE := [.bx ⟨0, by decide⟩]
  hiTE := []
  inP0diag := false
  inP0 := false
  inWdiag := false
  inWadd := false
  inSdiag := false
  inS := false
  outP := false
  outT := false

def nT : Nlp ℝ dT :=
  ⟨Fin.elim0, fun _ => (0 : Fin 2), fun _ => (1 : Fin 2), 0, 0, 0, fun _ _ => 0, fun _ _ => 0, fun _ => 0, fun _ => 0⟩
def lT : Lin ℝ dT :=
  ⟨fun _ => (1 : Matrix (Fin 2) (Fin 2) ℝ), fun _ i _ => if i.val = 0 then 0 else 1, fun _ => 0, fun _ => 0, fun _ => 0, 0⟩
def vT (c : ℝ) : Fin dT.nx → ℝ := fun i => if i.val = 0 then 0 else c
def rdT : RDesc ℝ dT := ⟨.barrier1, 0, fun _ _ => 1, 0, 0, 1⟩
def qT : QpB ℝ dT := ⟨fun _ _ => 0, fun _ _ => 0, fun _ => 0, fun _ => 0⟩

theorem gainT (sc : Bool) : (riccati Real.sqrt (chE dT rfl) dsT rdT (readData dsT sc [] (init dsT nT 1)) lT qT (initR dsT rdT nT)).gain 1
    = 0 := by
  generalize readData dsT sc [] (init dsT nT 1) = m
  have hP : ∀ j, (quadTerminal Real.sqrt dsT rdT m lT qT (initR dsT rdT nT)).Q (1 : Fin 2) j = 0 := fun j => by
    have e : (initR dsT rdT nT).dcet 0 = Pi.single (0 : Fin 2) (1 : ℝ) := rfl
    have h0 : (initR dsT rdT nT).dcet 0 (1 : Fin 2) = 0 := by
      rw [e]
      exact Pi.single_eq_of_ne (M := fun _ : Fin 2 => ℝ) (by decide) 1
    show (∑ r ∈ Finset.range 1, (initR dsT rdT nT).dcet r (1 : Fin 2) * _) + (0 : ℝ) = 0
    rw [Finset.sum_range_one, h0]
    ring
  have e : ∀ rm, rm = quadTerminal Real.sqrt dsT rdT m lT qT (initR dsT rdT nT) →
      (riccati Real.sqrt (chE dT rfl) dsT rdT m lT qT (initR dsT rdT nT)).gain 1
      = (chE dT rfl).solveT ((chE dT rfl).potrf ((lT.B 1)ᵀ * rm.Q * lT.B 1 + (quadStage Real.sqrt dsT rdT m lT qT 1 rm).R))
        ((chE dT rfl).solveN ((chE dT rfl).potrf ((lT.B 1)ᵀ * rm.Q * lT.B 1 + (quadStage Real.sqrt dsT rdT m lT qT 1 rm).R))
          ((lT.B 1)ᵀ * rm.Q * lT.A 1 + (quadStage Real.sqrt dsT rdT m lT qT 1 rm).S)) := by
    rintro _ rfl; rfl
  replace e := e _ rfl
  rw [e]
  clear e
  generalize quadTerminal Real.sqrt dsT rdT m lT qT (initR dsT rdT nT) = rm at *
  have hR : ∀ i j, (quadStage Real.sqrt dsT rdT m lT qT 1 rm).R i j = 1 := by
    intro i j
    show (∑ r ∈ Finset.range 0, _) + (1 : ℝ) = 1
    simp
  have hS : ∀ i j, (quadStage Real.sqrt dsT rdT m lT qT 1 rm).S i j = 0 := by
    intro i j
    show (∑ r ∈ Finset.range 0, _) + (0 : ℝ) = 0
    simp
  have s1 : ∀ f : Fin dT.nx → ℝ, ∑ i, f i = f (0 : Fin 2) + f (1 : Fin 2) := fun f => Fin.sum_univ_two f
  have hB0 : ∀ i, lT.B 1 (0 : Fin 2) i = 0 := fun i => by
    show (if (0 : Fin 2).val = 0 then (0 : ℝ) else 1) = 0
    simp
  have hz : ∀ i j, ((lT.B 1)ᵀ * rm.Q) i j = 0 := fun i j => by
    rw [mul_apply, s1]
    show lT.B 1 (0 : Fin 2) i * rm.Q (0 : Fin 2) j + lT.B 1 (1 : Fin 2) i * rm.Q (1 : Fin 2) j = 0
    rw [hB0, hP]; ring
  have hz' : (lT.B 1)ᵀ * rm.Q = 0 := by ext i j; exact hz i j
  funext i j
  rw [chE_solve dT rfl _ _ i j (by rw [add_apply, hR, hz', Matrix.zero_mul]; simp), add_apply, hS, hz', Matrix.zero_mul]
  simp

/-- C80: false in general.  The gradients of the terminal bounds are built with the indices of the path bounds:
here the terminal bound is on the second state, but the weight goes to the first one and the gain is 0. -/
theorem C80_terminal_idx_false : ¬ ∀ (d : Dims) (sq : ℝ → ℝ) (ch : Chol ℝ d) (ds : Desc ℝ d) (rd : RDesc ℝ d) (l : Lin ℝ d)
    (q : QpB ℝ d) (data : List ℝ) (m m' : Mem ℝ d) (rm rm' : RMem ℝ d) (n n0 n' : Nlp ℝ d) (out : Nat → ℝ),
    CholOk ch → CostOk rd → compiles ds = true → (∀ r ∈ ds.loT ++ ds.hiT, r.kind ≠ .h) →
    ReachR sq ch ds rd n0 m rm → SlackPos sq ds q m.bsq m.bsqE → 0 < d.N →
    updateRic sq ch ds rd l q data m rm n = (.ok m' n' out, rm') →
    ∀ k, 1 ≤ k → k ≤ d.N → ∀ (x xs : Nat → Fin d.nx → ℝ) (u : Nat → Fin d.nu → ℝ),
    Dyn l k x u → Dyn l k xs (fun j => -(rm'.gain j *ᵥ xs j)) → x k = xs k →
    costFrom (ricCost sq ds rd n0 l q m.bsq) (ricCostE sq ds rd n0 l q m.bsqE) k xs (fun j => -(rm'.gain j *ᵥ xs j))
      ≤ costFrom (ricCost sq ds rd n0 l q m.bsq) (ricCostE sq ds rd n0 l q m.bsqE) k x u := by
  intro h
  obtain ⟨rm', hu⟩ := C80_accepts (sq := Real.sqrt) (ch := chE dT rfl) (ds := dsT) (rd := rdT) (l := lT)
      (q := qT) (data := []) (m := init dsT nT 1) (rm := initR dsT rdT nT) (n := nT)
      (fun i _ => i.2) (by decide)
  have hu2 := hu.trans (by rw [update_ok (str := false) rfl rfl rfl])
  obtain ⟨str, -, -, e, -⟩ := updateRic_ok hu2
  have hg : rm'.gain 1 = 0 := by rw [e]; exact gainT str
  have q1 : ∀ u : Fin dT.nu → ℝ, quad rdT.R u = u (0 : Fin 1) ^ 2 := fun u => by
    have e1 : quad rdT.R u = rdT.R (0 : Fin 1) (0 : Fin 1) * u (0 : Fin 1) ^ 2 := quadE1 _ _
    have e2 : rdT.R (0 : Fin 1) (0 : Fin 1) = 1 := rfl
    rw [e1, e2, one_mul]
  have lq : ∀ x u, lqCost rdT.Q rdT.R rdT.S x u = u (0 : Fin 1) ^ 2 := fun x u => by
    have e2 : rdT.Q = 0 := rfl
    have e3 : rdT.S = 0 := rfl
    unfold lqCost
    rw [q1, e2, e3]
    simp [quad]
  have hc : CostOk rdT := by
    refine ⟨transpose_zero, rfl, transpose_zero, fun x u => ?_, fun u hu => ?_, fun x => ?_, zero_le_one⟩
    · rw [lq]; positivity
    · rw [q1]
      have hu0 : u (0 : Fin 1) ≠ 0 := fun h => hu (by funext i; rw [show i = (0 : Fin 1) from Subsingleton.elim (α := Fin 1) _ _, h]; rfl)
      positivity
    · have e : rdT.Qe = 0 := rfl
      rw [e]; simp [quad]
  have hs : SlackPos Real.sqrt dsT qT (init dsT nT 1).bsq (init dsT nT 1).bsqE := by
    have e : ∀ k r, (init dsT nT 1).bsq k r = 1 := fun _ _ => rfl
    have e' : ∀ r, (init dsT nT 1).bsqE r = 1 := fun _ => rfl
    refine ⟨fun k _ _ => ⟨fun r _ => ?_, fun r _ => ?_⟩, fun r _ => ?_, fun r _ => ?_⟩ <;>
      simp [e, e', qT, slackLo, slackHi]
  have hA : ∀ j x, lT.A j *ᵥ x = x := fun j x => one_mulVec x
  have hB : ∀ j (c : ℝ), lT.B j *ᵥ (fun _ => c) = vT c := fun j c => by
    funext i
    show ∑ _k : Fin 1, (if i.val = 0 then 0 else 1) * c = if i.val = 0 then 0 else c
    rw [sum1]
    split <;> simp
  have hv : ∀ a b, vT a + vT b = vT (a + b) := fun a b => by
    funext i
    show (if i.val = 0 then 0 else a) + (if i.val = 0 then 0 else b) = if i.val = 0 then 0 else a + b
    split <;> simp
  have := h dT Real.sqrt (chE dT rfl) dsT rdT lT qT [] _ _ _ rm' nT nT _ _ (chE_ok dT rfl) hc rfl
    (fun r hr => by simp [dsT] at hr)
    (.init 1) hs (by decide) hu2 1 le_rfl (by decide)
    (fun j => vT (if j = 1 then 1 else 1 / 2)) (fun _ => vT 1)
    (fun _ _ => -(1 / 2)) ?_ ?_ ?_
  · have e0 : ∀ r, (init dsT nT 1).bsqE r = 1 := fun _ => rfl
    have e1 : Finset.Ico 1 dT.N = {1} := by decide
    have e2 : dT.N = 2 := rfl
    have e4 : rdT.Qe = 0 := rfl
    have e5 : ∀ i, nT.idxbxe i = (1 : Fin 2) := fun _ => rfl
    have e6 : ∀ (c : ℝ) i, rowAtE nT lT 0 (vT c) (.bx i) = c := fun c i => zero_add _
    have e7 : ∀ x : Fin dT.nx → ℝ, quad (0 : Mat ℝ dT.nx dT.nx) x = 0 := fun x => by simp [quad]
    simp only [costFrom, e1, Finset.sum_singleton] at this
    simp only [ricCost, ricCostE, lq, e2, e4, e0, e7] at this
    simp only [dsT, List.map_nil, List.map_cons, List.sum_nil, List.sum_cons, e6] at this
    simp [rdT, qT, slackLo, barrierWeight] at this
    norm_num at this
    nlinarith [sq_nonneg ((-(rm'.gain 1 *ᵥ vT 1)) (0 : Fin 1))]
  · intro j h1 h2
    obtain rfl : j = 1 := by have : j < 2 := h2; omega
    show vT (1 / 2) = lT.A 1 *ᵥ vT 1 + lT.B 1 *ᵥ fun _ => -(1 / 2)
    rw [hA, hB, hv]
    norm_num
  · intro j h1 h2
    obtain rfl : j = 1 := by have : j < 2 := h2; omega
    show vT 1 = lT.A 1 *ᵥ vT 1 + lT.B 1 *ᵥ (-(rm'.gain 1 *ᵥ vT 1))
    rw [hA, hg, zero_mulVec, neg_zero, mulVec_zero, add_zero]
  · rfl

/-- C80: false in general.  With a tightened terminal bound whose index is not that of a path bound, the index array
of the path is read past its end, in every Riccati mode. -/
theorem C80_terminal_oob_false : ¬ ∀ (d : Dims) (sq : ℚ → ℚ) (ch : Chol ℚ d) (ds : Desc ℚ d) (rd : RDesc ℚ d) (l : Lin ℚ d)
    (q : QpB ℚ d) (data : List ℚ) (m : Mem ℚ d) (rm : RMem ℚ d) (n n0 : Nlp ℚ d), compiles ds = true →
    ReachR sq ch ds rd n0 m rm → 0 < d.N → streaming ds data = some true ∨ ds.inWadd = false →
    (updateRic sq ch ds rd l q data m rm n).1 ≠ .ub := by
  intro h
  let d : Dims := ⟨2, 1, 1, 1, 0, 0, 0, 0, 0, 1, 0, 0⟩
  let ds : Desc ℚ d :=
    { gamma := 1, eps := 0, barrier := false, mode := .none, sensP := false, P0 := fun _ _ => 1
      W := fun _ _ => 0, G := fun _ _ => 1, Sigma := 0, Kfb := fun _ _ => 0, loT := [], hiT := []
      loTE := [.bx ⟨0, by decide⟩], hiTE := [], inP0diag := false, inP0 := false, inWdiag := false, inWadd := false
      inSdiag := false, inS := false, outP := false, outT := false }
  let n : Nlp ℚ d := ⟨Fin.elim0, Fin.elim0, fun _ => ⟨0, by decide⟩, 0, 0, 0, fun _ _ => 0, fun _ _ => 0, fun _ => 0, fun _ => 0⟩
  let l : Lin ℚ d := ⟨fun _ _ _ => 1, fun _ _ _ => 1, fun _ => 0, fun _ => 0, fun _ => 0, 0⟩
  let rd : RDesc ℚ d := ⟨.const, 0, fun _ _ => 1, 0, 0, 1⟩
  exact h d id ⟨id, fun _ => id, fun _ => id⟩ ds rd l ⟨fun _ _ => 0, fun _ _ => 0, fun _ => 0, fun _ => 0⟩ []
    (init ds n 0) (initR ds rd n) n n rfl (.init 0) (by decide) (.inr rfl) rfl

end Acados.Zoro
