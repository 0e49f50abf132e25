import Verif.Lemmas.Cost
import Mathlib.Algebra.Order.BigOperators.Ring.Finset
import Mathlib.Algebra.Order.Field.Rat
import Mathlib.Tactic.Linarith
import Mathlib.Tactic.NormNum
import Mathlib.Tactic.FieldSimp
/-!
# C42, C43, C56: stage costs
-/
set_option linter.unusedSectionVars false
namespace Acados.Cost
open Finset

section LS
variable {K : Type*} [Field K] [DecidableEq K]

/-- Specification: the last written value of every field. `Z`, `z` set lower and upper slack weights together. -/
def LsData.write (d : Dims) (a : LsData K) : LsField K → LsData K
  | .W v => { a with W := v }
  | .Cyt v => { a with Vu := fun y i => v i y, Vx := fun y i => v (d.nu + i) y }
  | .Vx v => { a with Vx := v }
  | .Vu v => { a with Vu := v }
  | .Vz v => { a with Vz := v }
  | .yref v => { a with yref := v }
  | .Z v => { a with sZ := fun i => if i < d.ns then v i else v (i - d.ns) }
  | .Zl v => { a with sZ := fun i => if i < d.ns then v i else a.sZ i }
  | .Zu v => { a with sZ := fun i => if i < d.ns then a.sZ i else v (i - d.ns) }
  | .z v => { a with sz := fun i => if i < d.ns then v i else v (i - d.ns) }
  | .zl v => { a with sz := fun i => if i < d.ns then v i else a.sz i }
  | .zu v => { a with sz := fun i => if i < d.ns then a.sz i else v (i - d.ns) }
  | .scaling v => { a with scaling := v }

/-- Specification: calls other than writes do not change the data. -/
def LsData.call (d : Dims) (a : LsData K) : LsOp K → LsData K
  | .set f => a.write d f
  | _ => a

/-- the data found in memory before the first call (uninitialised memory: arbitrary) -/
def LsModel.data (d : Dims) (m : LsModel K) : LsData K where
  W := m.W
  Vu := fun y i => m.Cyt i y
  Vx := fun y i => m.Cyt (d.nu + i) y
  Vz := m.Vz
  yref := m.yref
  sz := m.z
  sZ := m.Z
  scaling := m.scaling

/-- the stored model holds the data `a` -/
structure Holds (d : Dims) (m : LsModel K) (a : LsData K) : Prop where
  W : m.W = a.W
  cyt : ∀ i y, m.Cyt i y = if i < d.nu then a.Vu y i else a.Vx y (i - d.nu)
  Vz : m.Vz = a.Vz
  yref : m.yref = a.yref
  sz : m.z = a.sz
  sZ : m.Z = a.sZ
  sc : m.scaling = a.scaling

theorem holds_data (d : Dims) (m : LsModel K) : Holds d m (m.data d) := by
  refine ⟨rfl, fun i y => ?_, rfl, rfl, rfl, rfl, rfl⟩
  unfold LsModel.data
  split
  · rfl
  · simp only [show d.nu + (i - d.nu) = i by omega]

theorem holds_set (d : Dims) (m : LsModel K) (a : LsData K) (h : Holds d m a) (f : LsField K) :
    Holds d (lsSet d m f) (a.write d f) := by
  obtain ⟨h1, h2, h3, h4, h5, h6, h7⟩ := h
  cases f <;> refine ⟨?_, ?_, ?_, ?_, ?_, ?_, ?_⟩ <;> simp only [lsSet, LsData.write, h1, h3, h4, h5, h6, h7] <;>
    try assumption
  · intro i y
    split
    · rfl
    · rw [show d.nu + (i - d.nu) = i by omega]
  · intro i y
    rw [h2]
    split
    · rw [if_neg (by omega)]
    · rw [if_pos (by omega), if_pos (by omega)]
  · intro i y
    split
    · rfl
    · next h => rw [h2, if_neg h]

theorem step_model_data (d : Dims) (e : Ext K) (s : LsState K) (op : LsOp K) (a : LsData K) (h : Holds d s.m a) :
    Holds d (lsStep d e s op).m (a.call d op) := by
  obtain ⟨h1, h2, h3, h4, h5, h6, h7⟩ := h
  cases op with
  | set f => exact holds_set d s.m a ⟨h1, h2, h3, h4, h5, h6, h7⟩ f
  | precompute =>
    simp only [lsStep, lsPrecompute, lsUpdateW_data]
    exact ⟨h1, h2, h3, h4, h5, h6, h7⟩
  | init =>
    simp only [lsStep, lsInitialize, lsUpdateW_data]
    exact ⟨h1, h2, h3, h4, h5, h6, h7⟩
  | update add p => exact ⟨h1, h2, h3, h4, h5, h6, h7⟩
  | computeFun p => exact ⟨h1, h2, h3, h4, h5, h6, h7⟩

theorem diag_step (d : Dims) (e : Ext K) (s : LsState K) (op : LsOp K)
    (h : (∃ W, op = .set (.W W)) ∨ s.m.diag = isDiag d.ny s.m.W) :
    (lsStep d e s op).m.diag = isDiag d.ny (lsStep d e s op).m.W := by
  rcases h with ⟨W, rfl⟩ | h
  · rfl
  · cases op with
    | set f => cases f <;> first | exact h | rfl
    | precompute => simp only [lsStep, lsPrecompute, lsUpdateW_data]; exact h
    | init => simp only [lsStep, lsInitialize, lsUpdateW_data]; exact h
    | update add p => exact h
    | computeFun p => exact h

theorem ls_history (d : Dims) (e : Ext K) (ops : List (LsOp K)) (s : LsState K) (a : LsData K) (hi : LsInv d e s)
    (hh : Holds d s.m a) :
    LsInv d e (ops.foldl (lsStep d e) s) ∧ Holds d (ops.foldl (lsStep d e) s).m (ops.foldl (LsData.call d) a)
    ∧ ((∃ W, .set (.W W) ∈ ops) ∨ s.m.diag = isDiag d.ny s.m.W →
        (ops.foldl (lsStep d e) s).m.diag = isDiag d.ny (ops.foldl (lsStep d e) s).m.W) := by
  induction ops generalizing s a with
  | nil => exact ⟨hi, hh, fun h => h.elim (fun ⟨_, h⟩ => by simp at h) id⟩
  | cons op ops ih =>
    obtain ⟨h1, h2, h3⟩ := ih (lsStep d e s op) (a.call d op) (lsInv_step d e s hi op) (step_model_data d e s op a hh)
    refine ⟨h1, h2, fun h => h3 ?_⟩
    rcases h with ⟨W, hW⟩ | h
    · rcases List.mem_cons.1 hW with hW | hW
      · exact .inr (diag_step d e s op (.inl ⟨W, hW.symm⟩))
      · exact .inl ⟨W, hW⟩
    · exact .inr (diag_step d e s op (.inr h))

theorem res_of_holds (d : Dims) (m : LsModel K) (a : LsData K) (h : Holds d m a) (p : Point K) (y : Nat) :
    lsRes d m p y = a.res d.nu d.nx d.nz p.ux p.z y := by
  rw [lsRes_eq, Dims.nv, sum_range_add, LsData.res, h.Vz, h.yref]
  congr 3
  · exact sum_congr rfl fun i hi => by rw [h.cyt, if_pos (mem_range.1 hi)]
  · exact sum_congr rfl fun i _ => by rw [h.cyt, if_neg (by omega), Nat.add_sub_cancel_left]

theorem jac_of_holds (d : Dims) (m : LsModel K) (a : LsData K) (h : Holds d m a) (p : Point K) (i y : Nat) :
    lsCyt d m p i y = a.jac d.nu d.nz p.dz i y := by
  rw [lsCyt_eq, LsData.jac, h.cyt, h.Vz]

/-- C42: whatever sequence of writes and solver calls preceded, if `W` was written at least once, then after the
next call of `initialize` the linearisation yields the Gauss-Newton Hessian, the gradient and the value of
`scaling (½ ‖Vx x + Vu u + Vz z - yref‖²_W + zᵀ s + ½ sᵀ Z s)` for the last written values of all fields, the slack
Hessian is `scaling Z`, and the value computed for a trial point in the line search is the same function. -/
theorem C42_ls_history [NeZero (2 : K)] (d : Dims) (e : Ext K) (s0 : LsState K) (hf : LsFresh s0) (ops : List (LsOp K))
    (hW : ∃ W, .set (.W W) ∈ ops) (add : Bool) (p q : Point K) :
    let s := ops.foldl (lsStep d e) s0
    let a := ops.foldl (LsData.call d) (s0.m.data d)
    Factorizes e d.ny a.W →
    let t := lsInitialize d e s
    let u := lsUpdate d add t p
    (∀ i j, j ≤ i → u.mem.RSQ i j = (if add then s.mem.RSQ i j else 0) + a.scaling *
        ∑ k ∈ range d.ny, ∑ l ∈ range d.ny, symL a.W k l * a.jac d.nu d.nz p.dz i k * a.jac d.nu d.nz p.dz j l)
    ∧ u.mem.fn = a.value d.nu d.nx d.nz d.ny d.ns p.ux p.z
    ∧ (lsComputeFun d u q).mem.fn = a.value d.nu d.nx d.nz d.ny d.ns q.ux q.z
    ∧ (∀ i, u.mem.Z i = a.scaling * a.sZ i)
    ∧ (∀ i < d.nu + d.nx, u.mem.grad i = a.scaling * ∑ k ∈ range d.ny, ∑ l ∈ range d.ny,
        symL a.W k l * a.jac d.nu d.nz p.dz i k * a.res d.nu d.nx d.nz p.ux p.z l)
    ∧ (∀ i < 2 * d.ns, u.mem.grad (d.nu + d.nx + i) = a.scaling * (a.sz i + a.sZ i * p.ux (d.nu + d.nx + i))) := by
  intro s a hfac t u
  have h0 : LsInv d e s0 := ⟨fun h => (by rw [hf.w] at h; cases h), fun h => (by rw [hf.w] at h; cases h)⟩
  obtain ⟨hi, hh, hd⟩ := ls_history d e ops s0 (s0.m.data d) h0 (holds_data d s0.m)
  have hd := hd (.inl hW)
  change LsInv d e s at hi
  change Holds d s.m a at hh
  change s.m.diag = isDiag d.ny s.m.W at hd
  obtain ⟨hi', hw', hc'⟩ := lsInv_updateW d e s hi
  have hm : t.m = { s.m with wChanged := false, cytChanged := false } := lsUpdateW_data d e s
  have hti : LsInv d e t := lsInv_step d e s hi .init
  have htR : t.mem.RSQ = s.mem.RSQ := lsUpdateW_RSQ d e s
  have htZ : t.mem.Z = fun i => t.m.scaling * t.m.Z i := rfl
  have hth : Holds d t.m a := by rw [hm]; exact ⟨hh.W, hh.cyt, hh.Vz, hh.yref, hh.sz, hh.sZ, hh.sc⟩
  have htd : t.m.diag = isDiag d.ny a.W := by rw [hm]; exact hd.trans (by rw [hh.W])
  have htw : t.m.wChanged = false := by rw [hm]
  have htc : t.m.cytChanged = false := by rw [hm]
  clear_value s a t
  obtain ⟨f1, f2⟩ := hti.fac htw
  have hH := hti.hess htw htc
  rw [hth.W] at f1 f2
  have hbil := fun x y => factor_bilin e d.ny a.W hfac t.m.diag htd t.mem.cholDiag t.mem.chol f1 f2 x y
  have hres : ∀ p : Point K, lsRes d t.m p = a.res d.nu d.nx d.nz p.ux p.z := fun p => by
    funext y; exact res_of_holds d t.m a hth p y
  have hjac : ∀ i, lsCyt d t.m p i = a.jac d.nu d.nz p.dz i := fun i => by
    funext y; exact jac_of_holds d t.m a hth p i y
  refine ⟨?_, ?_, ?_, ?_, ?_, ?_⟩
  · intro i j hij
    change lsRSQ d add t p i j = _
    unfold lsRSQ
    split
    · simp only [syrk, if_pos hij, lsTimesChol_eq, hbil, hjac, hth.sc, htR]
      split <;> ring
    · next hz =>
      have hz0 : d.nz = 0 := by omega
      have hj : ∀ i, t.m.Cyt i = a.jac d.nu d.nz p.dz i := by
        intro i; rw [← hjac]; funext y; unfold lsCyt; rw [if_neg hz]
      have := hH i j hij
      rw [hbil, hth.sc, hj, hj] at this
      split
      · simp only [this, htR]
      · rw [this, zero_add]
  · change scaledFun _ _ = _
    simp only [scaledFun_eq, symv_dot, slackFun_eq, hres, hth.sc, hth.W, hth.sz, hth.sZ]
    rfl
  · change scaledFun _ _ = _
    change scaledFun t.m.scaling (1 / 2 * ∑ y ∈ range d.ny, lsCholRes d.ny t.m t.mem (lsRes d t.m q) y
      * lsCholRes d.ny t.m t.mem (lsRes d t.m q) y + slackFun d.nv (2 * d.ns) t.m.z t.m.Z q.ux) = _
    simp only [scaledFun_eq, lsCholRes_eq, hbil, slackFun_eq, hres, hth.sc, hth.sz, hth.sZ]
    rfl
  · intro i
    change t.mem.Z i = _
    rw [htZ, hth.sc, hth.sZ]
  · intro i hlt
    change scaledGrad d.nv t.m.scaling
      (fun i => ∑ y ∈ range d.ny, lsCyt d t.m p i y * symv d.ny t.m.W (lsRes d t.m p) y)
      (slackGrad d.nv t.m.z t.m.Z p.ux) i = _
    rw [scaledGrad_eq, if_pos (show i < d.nv from hlt), hth.sc, hth.W, hres]
    congr 1
    refine sum_congr rfl fun k _ => ?_
    rw [symv_eq, mul_sum, hjac]
    exact sum_congr rfl fun l _ => by ring
  · intro i _
    change scaledGrad d.nv t.m.scaling
      (fun i => ∑ y ∈ range d.ny, lsCyt d t.m p i y * symv d.ny t.m.W (lsRes d t.m p) y)
      (slackGrad d.nv t.m.z t.m.Z p.ux) _ = _
    rw [scaledGrad_eq, if_neg (by simp [Dims.nv]), hth.sc, hth.sz, hth.sZ]
    simp only [slackGrad, Dims.nv, Nat.add_sub_cancel_left]

end LS

/-- C42: with a nonnegative scaling, the Hessian of the linear least-squares cost is positive semidefinite. -/
theorem C42_ls_hessian_psd {K : Type*} [Field K] [LinearOrder K] [IsStrictOrderedRing K] (d : Dims) (e : Ext K)
    (s0 : LsState K) (hf : LsFresh s0) (ops : List (LsOp K)) (hW : ∃ W, .set (.W W) ∈ ops) (p : Point K)
    (v : Nat → K) :
    let a := ops.foldl (LsData.call d) (s0.m.data d)
    Factorizes e d.ny a.W → 0 ≤ a.scaling →
    0 ≤ ∑ i ∈ range (d.nu + d.nx), ∑ j ∈ range (d.nu + d.nx),
      symL (lsUpdate d false (lsInitialize d e (ops.foldl (lsStep d e) s0)) p).mem.RSQ i j * v i * v j := by
  intro a hfac hs
  have h := (C42_ls_history d e s0 hf ops hW false p p hfac).1
  change ∀ i j, j ≤ i → _ = _ + a.scaling * ∑ k ∈ range d.ny, ∑ l ∈ range d.ny,
    symL a.W k l * a.jac d.nu d.nz p.dz i k * a.jac d.nu d.nz p.dz j l at h
  clear_value a
  generalize (lsUpdate d false (lsInitialize d e (ops.foldl (lsStep d e) s0)) p).mem.RSQ = H at h ⊢
  have hs' : ∀ k l, symL a.W k l = symL a.W l k := by
    intro k l
    unfold symL
    rcases lt_trichotomy k l with h | h | h
    · rw [if_neg (by omega), if_pos h.le]
    · subst h; rfl
    · rw [if_pos h.le, if_neg (by omega)]
  have hH : ∀ i j, symL H i j = a.scaling * ∑ k ∈ range d.ny, ∑ l ∈ range d.ny,
      symL a.W k l * a.jac d.nu d.nz p.dz i k * a.jac d.nu d.nz p.dz j l := by
    intro i j
    unfold symL
    split
    · next hij => rw [h i j hij]; simp [symL]
    · next hij =>
      rw [h j i (by omega), sum_comm]
      simp only [Bool.false_eq_true, if_false, zero_add]
      congr 1
      refine sum_congr rfl fun k _ => sum_congr rfl fun l _ => ?_
      rw [hs' l k]
      change _ = symL a.W k l * _ * _
      ring
  have hb := factor_bilin e d.ny a.W hfac _ rfl (fun i => e.sqrt (a.W i i)) (e.potrf a.W) (fun _ => rfl) (fun _ => rfl)
    (fun k => ∑ i ∈ range (d.nu + d.nx), a.jac d.nu d.nz p.dz i k * v i)
    (fun k => ∑ i ∈ range (d.nu + d.nx), a.jac d.nu d.nz p.dz i k * v i)
  have : ∑ i ∈ range (d.nu + d.nx), ∑ j ∈ range (d.nu + d.nx), symL H i j * v i * v j
      = a.scaling * ∑ k ∈ range d.ny, ∑ l ∈ range d.ny, symL a.W k l *
        (∑ i ∈ range (d.nu + d.nx), a.jac d.nu d.nz p.dz i k * v i) *
        (∑ j ∈ range (d.nu + d.nx), a.jac d.nu d.nz p.dz j l * v j) := by
    simp only [hH]
    have e1 : ∀ i j, a.scaling * (∑ k ∈ range d.ny, ∑ l ∈ range d.ny,
        symL a.W k l * a.jac d.nu d.nz p.dz i k * a.jac d.nu d.nz p.dz j l) * v i * v j
        = ∑ k ∈ range d.ny, ∑ l ∈ range d.ny,
          a.scaling * (symL a.W k l * ((a.jac d.nu d.nz p.dz i k * v i) * (a.jac d.nu d.nz p.dz j l * v j))) := by
      intro i j
      simp only [mul_sum, sum_mul]
      exact sum_congr rfl fun k _ => sum_congr rfl fun l _ => by ring
    simp only [e1]
    have e2 : ∀ k l, symL a.W k l * (∑ i ∈ range (d.nu + d.nx), a.jac d.nu d.nz p.dz i k * v i) *
        (∑ j ∈ range (d.nu + d.nx), a.jac d.nu d.nz p.dz j l * v j)
        = ∑ i ∈ range (d.nu + d.nx), ∑ j ∈ range (d.nu + d.nx),
          symL a.W k l * ((a.jac d.nu d.nz p.dz i k * v i) * (a.jac d.nu d.nz p.dz j l * v j)) := by
      intro k l
      rw [mul_assoc, sum_mul_sum, mul_sum]
      exact sum_congr rfl fun i _ => mul_sum _ _ _
    simp only [e2]
    simp only [mul_sum]
    exact sum4_comm (K := K) _ _ _ _ _
  rw [this, ← hb]
  exact mul_nonneg hs (sum_nonneg fun y _ => mul_self_nonneg _)


/-! ### Stale factorisation -/

/-- an exact factorisation for `1 × 1` matrices with entry 1 or 4 -/
def exExt : Ext ℚ where
  potrf := fun W _ _ => if W 0 0 = 4 then 2 else 1
  sqrt := fun x => if x = 4 then 2 else 1

/-- a fresh state -/
def exFresh : LsState ℚ where
  m := { W := fun _ _ => 7, Cyt := fun _ _ => 0, Vz := fun _ _ => 0, yref := fun _ => 0, Z := fun _ => 0, z := fun _ => 0,
         scaling := 1, diag := false, wChanged := true, cytChanged := true }
  mem := { hess := fun _ _ => 0, chol := fun _ _ => 0, cholDiag := fun _ => 0, Z := fun _ => 0, RSQ := fun _ _ => 0,
           grad := fun _ => 0, fn := 0 }

/-- The value computed by the line-search routine alone, without an `initialize` after the last write, is wrong: it
uses the factor of the previous weight (`ocp_nlp_cost_ls.c` lines 1066-1077; the API function that evaluates the cost,
`ocp_nlp_cost_compute` in `ocp_nlp_common.c` lines 3862-3894, does not call `initialize`). -/
theorem C42_cost_eval_stale_weight :
    ∃ (d : Dims) (e : Ext ℚ) (s0 : LsState ℚ) (ops : List (LsOp ℚ)) (p : Point ℚ),
      LsFresh s0 ∧ (∃ W, .set (.W W) ∈ ops) ∧ Factorizes e d.ny (ops.foldl (LsData.call d) (s0.m.data d)).W
      ∧ (lsComputeFun d (ops.foldl (lsStep d e) s0) p).mem.fn
        ≠ (ops.foldl (LsData.call d) (s0.m.data d)).value d.nu d.nx d.nz d.ny d.ns p.ux p.z := by
  refine ⟨⟨1, 0, 0, 1, 0⟩, exExt, exFresh,
    [.set (.W fun _ _ => 1), .set (.Vx fun _ _ => 1), .init, .set (.W fun _ _ => 4)], ⟨fun _ => 1, fun _ => 0, fun _ _ => 0⟩,
    ⟨rfl⟩, ⟨fun _ _ => 1, by simp⟩, ?_, ?_⟩
  · unfold Factorizes
    rw [if_neg (by decide +kernel)]
    intro i hi j hj
    obtain rfl : i = 0 := by simp only at hi; omega
    obtain rfl : j = 0 := by omega
    decide +kernel
  · decide +kernel

/-- a `2 × 2` weight with its Cholesky factor -/
def exW : Nat → Nat → ℚ := fun i j => if i = 0 ∧ j = 0 then 4 else 2

/-- factorisation that is exact for `exW` -/
def exExt2 : Ext ℚ where
  potrf := fun _ i j => if i = 0 ∧ j = 0 then 2 else if i = 0 then 0 else 1
  sqrt := fun x => x

/-- hypotheses of `C42_ls_history` hold in a non-trivial case -/
example : let ops : List (LsOp ℚ) := [.set (.W exW), .precompute, .set (.Vx fun y i => y + i), .set (.scaling 3),
      .update true ⟨fun i => i, fun _ => 0, fun _ _ => 0⟩]
    let d : Dims := ⟨2, 1, 1, 2, 1⟩
    LsFresh exFresh ∧ (∃ W, .set (.W W) ∈ ops) ∧ Factorizes exExt2 d.ny (ops.foldl (LsData.call d) (exFresh.m.data d)).W
      ∧ (0 : ℚ) ≤ (ops.foldl (LsData.call d) (exFresh.m.data d)).scaling
      ∧ (lsUpdate d false (lsInitialize d exExt2 (ops.foldl (lsStep d exExt2) exFresh))
          ⟨fun i => i, fun _ => 1, fun _ _ => 1⟩).mem.RSQ 2 2 ≠ 0 := by
  refine ⟨⟨rfl⟩, ⟨exW, by simp⟩, ?_, by decide +kernel, by decide +kernel⟩
  unfold Factorizes
  rw [if_neg (by decide +kernel)]
  intro i hi j hj
  have : i = 0 ∨ i = 1 := by simp only at hi; omega
  rcases this with rfl | rfl
  · obtain rfl : j = 0 := by omega
    decide +kernel
  · have : j = 0 ∨ j = 1 := by omega
    rcases this with rfl | rfl <;> decide +kernel

/-! ### C43: gradient and value -/

/-- the point the cost modules see: algebraic variables and their sensitivities come from the integrator -/
def pt {K : Type*} (ζ : (Nat → K) → Nat → K) (dz : (Nat → K) → Nat → Nat → K) (w : Nat → K) : Point K := ⟨w, ζ w, dz w⟩

section Grad
/-- C43, linear least squares: the gradient is the derivative of the value reported with it, for algebraic variables
`z = ζ(u, x)` with Jacobian `dz`. -/
theorem C43_ls_gradient (d : Dims) (add : Bool) (s : LsState ℝ) (ζ : (Nat → ℝ) → Nat → ℝ)
    (dz : (Nat → ℝ) → Nat → Nat → ℝ) (w : Nat → ℝ)
    (hζ : ∀ k < d.nz, HasGrad (d.nu + d.nx) (fun v => ζ v k) (fun i => dz w i k) w) :
    HasGrad (d.nu + d.nx + 2 * d.ns) (fun v => (lsUpdate d add s (pt ζ dz v)).mem.fn)
      (lsUpdate d add s (pt ζ dz w)).mem.grad w := by
  have hres : ∀ y < d.ny, HasGrad (d.nu + d.nx) (fun v => lsRes d s.m (pt ζ dz v) y)
      (fun i => lsCyt d s.m (pt ζ dz w) i y) w := by
    intro y _
    simp only [lsRes_eq, lsCyt_eq, pt]
    have h1 := HasGrad.sum (n := d.nu + d.nx) (w := w) d.nv fun j (hj : j < d.nv) =>
      (HasGrad.coord (n := d.nu + d.nx) j hj w).const_mul (s.m.Cyt j y)
    have h2 := HasGrad.sum (n := d.nu + d.nx) (w := w) d.nz fun k hk => (hζ k hk).const_mul (s.m.Vz y k)
    have h3 := (h1.add h2).add (HasGrad.const (n := d.nu + d.nx) (- s.m.yref y) w)
    simp only [sub_eq_add_neg]
    refine h3.congr fun i hi => ?_
    rw [sum_eq_single (s := range d.nv) (f := fun j => s.m.Cyt j y * if i = j then (1 : ℝ) else 0) i (fun j _ hji => by rw [if_neg (Ne.symm hji), mul_zero])
      (fun h => absurd (mem_range.2 (show i < d.nv from hi)) h), if_pos rfl, mul_one, add_zero]
    congr 1
    exact sum_congr rfl fun k _ => mul_comm _ _
  have h := HasGrad.stage (d.nu + d.nx) (2 * d.ns) s.m.scaling (HasGrad.halfSq d.ny s.m.W hres) s.m.z s.m.Z
  have hv : (fun v => (lsUpdate d add s (pt ζ dz v)).mem.fn) = fun v => s.m.scaling *
      (halfSq d.ny s.m.W (fun y => lsRes d s.m (pt ζ dz v) y) + slackCost (d.nu + d.nx) (2 * d.ns) s.m.z s.m.Z v) := by
    funext v
    simp only [lsUpdate, scaledFun_eq, symv_dot, slackFun_eq, Dims.nv]
    rfl
  rw [hv]
  exact h

/-- C43, nonlinear least squares: gradient and value, for a residual function whose generated Jacobians are right. -/
theorem C43_nls_gradient (d : Dims) (o : NlsOpts) (ho : o.integratorCost = false) (m : NlsModel ℝ) (mem : NlsMem ℝ)
    (ζ : (Nat → ℝ) → Nat → ℝ) (dz : (Nat → ℝ) → Nat → Nat → ℝ) (w : Nat → ℝ)
    (hζ : ∀ k < d.nz, HasGrad (d.nu + d.nx) (fun v => ζ v k) (fun i => dz w i k) w)
    (hy : ∀ y < d.ny, HasGrad2 (d.nu + d.nx) d.nz (fun v z => m.yFun v z y) (fun i => m.Jt w (ζ w) i y)
      (fun k => m.Vz w (ζ w) y k) w (ζ w))
    (out : (Nat → ℝ) → NlsMem ℝ) (hout : ∀ v, nlsUpdate d o m mem (pt ζ dz v) = some (out v)) :
    HasGrad (d.nu + d.nx + 2 * d.ns) (fun v => (out v).fn) (out w).grad w := by
  have hres : ∀ y < d.ny, HasGrad (d.nu + d.nx) (fun v => nlsRes m (pt ζ dz v) y)
      (fun i => nlsJt d m (pt ζ dz w) i y) w := by
    intro y hyy
    have h1 := ((hy y hyy).comp (ζ := ζ) (dz := dz w) rfl hζ).add (HasGrad.const (n := d.nu + d.nx) (- m.yref y) w)
    simp only [nlsRes, sub_eq_add_neg]
    refine h1.congr fun i _ => ?_
    simp only [nlsJt, pt, add_zero]
    split
    · rfl
    · next h =>
      have : d.nz = 0 := by omega
      rw [this, range_zero, sum_empty, zero_add]
  have h := HasGrad.stage (d.nu + d.nx) (2 * d.ns) m.scaling (HasGrad.halfSq d.ny m.W hres) m.z m.Z
  have ho' : ∀ v, (out v).fn = m.scaling * (halfSq d.ny m.W (fun y => nlsRes m (pt ζ dz v) y)
      + slackCost (d.nu + d.nx) (2 * d.ns) m.z m.Z v)
      ∧ (out v).grad = scaledGrad d.nv m.scaling (fun i => ∑ y ∈ range d.ny, nlsJt d m (pt ζ dz v) i y *
        symv d.ny m.W (fun y => nlsRes m (pt ζ dz v) y) y) (slackGrad d.nv m.z m.Z v) := by
    intro v
    have := hout v
    unfold nlsUpdate at this
    simp only [ho, Bool.false_eq_true, if_false, Option.map_eq_some_iff] at this
    obtain ⟨H, _, hH⟩ := this
    rw [← hH]
    refine ⟨?_, rfl⟩
    simp only [scaledFun_eq, symv_dot, slackFun_eq, Dims.nv]
    rfl
  rw [show (fun v => (out v).fn) = _ from funext fun v => (ho' v).1, (ho' w).2]
  exact h

/-- C43, convex-over-nonlinear cost: gradient and value. `outer` is the gradient of the outer loss at the inner
function's value, so the value function has partial derivatives `Jux outer` and `Jz outer`. -/
theorem C43_conl_gradient (d : Dims) (e : Ext ℝ) (add : Bool) (m : ConlModel ℝ) (R : Nat → Nat → ℝ)
    (ζ : (Nat → ℝ) → Nat → ℝ) (dz : (Nat → ℝ) → Nat → Nat → ℝ) (w : Nat → ℝ)
    (hζ : ∀ k < d.nz, HasGrad (d.nu + d.nx) (fun v => ζ v k) (fun i => dz w i k) w)
    (hy : HasGrad2 (d.nu + d.nx) d.nz m.value (fun i => ∑ y ∈ range d.ny, m.Jux w (ζ w) i y * m.outer w (ζ w) y)
      (fun k => ∑ y ∈ range d.ny, m.Jz w (ζ w) k y * m.outer w (ζ w) y) w (ζ w)) :
    HasGrad (d.nu + d.nx + 2 * d.ns) (fun v => (conlUpdate d e add m R (pt ζ dz v)).2.2)
      (conlUpdate d e add m R (pt ζ dz w)).2.1 w
    ∧ ∀ p, conlComputeFun d m p = (conlUpdate d e add m R p).2.2 := by
  refine ⟨?_, fun _ => rfl⟩
  have h1 : HasGrad (d.nu + d.nx) (fun v => m.value v (ζ v)) (fun i => ∑ y ∈ range d.ny, conlJt d m (pt ζ dz w) i y *
      m.outer w (ζ w) y) w := by
    refine (hy.comp (ζ := ζ) (dz := dz w) rfl hζ).congr fun i _ => ?_
    simp only [conlJt, pt]
    split
    · simp only [add_mul, sum_add_distrib, sum_mul, mul_sum]
      rw [sum_comm]
      congr 1
      exact sum_congr rfl fun y _ => sum_congr rfl fun k _ => by ring
    · next h =>
      have : d.nz = 0 := by omega
      rw [this, range_zero, sum_empty, zero_add]
  have h := HasGrad.stage (d.nu + d.nx) (2 * d.ns) m.scaling h1 m.z m.Z
  have hv : (fun v => (conlUpdate d e add m R (pt ζ dz v)).2.2) = fun v => m.scaling *
      (m.value v (ζ v) + slackCost (d.nu + d.nx) (2 * d.ns) m.z m.Z v) := by
    funext v
    simp only [conlUpdate, scaledFun_eq, slackFun_eq, Dims.nv]
    rfl
  rw [hv]
  exact h

/-- C43, external cost: gradient and value. -/
theorem C43_ext_gradient (d : Dims) (m : ExtModel ℝ) (ζ : (Nat → ℝ) → Nat → ℝ) (dz : (Nat → ℝ) → Nat → Nat → ℝ)
    (w : Nat → ℝ) (hζ : ∀ k < d.nz, HasGrad (d.nu + d.nx) (fun v => ζ v k) (fun i => dz w i k) w)
    (hy : HasGrad2 (d.nu + d.nx) d.nz m.value (fun i => m.grad w (ζ w) i)
      (fun k => m.grad w (ζ w) (d.nu + d.nx + k)) w (ζ w)) :
    HasGrad (d.nu + d.nx + 2 * d.ns) (fun v => (extUpdate d m (pt ζ dz v)).2) (extUpdate d m (pt ζ dz w)).1 w
    ∧ (extComputeGradient d m (pt ζ dz w)).1 = (extUpdate d m (pt ζ dz w)).1
    ∧ ∀ p, extComputeFun d m p = (extUpdate d m p).2 := by
  refine ⟨?_, rfl, fun _ => rfl⟩
  have h1 : HasGrad (d.nu + d.nx) (fun v => m.value v (ζ v)) (extGrad d m (pt ζ dz w)) w := by
    refine (hy.comp (ζ := ζ) (dz := dz w) rfl hζ).congr fun i _ => ?_
    simp only [extGrad, pt]
    split
    · rfl
    · next h =>
      have : d.nz = 0 := by omega
      rw [this, range_zero, sum_empty, zero_add]
  have h := HasGrad.stage (d.nu + d.nx) (2 * d.ns) m.scaling h1 m.z m.Z
  have hv : (fun v => (extUpdate d m (pt ζ dz v)).2) = fun v => m.scaling *
      (m.value v (ζ v) + slackCost (d.nu + d.nx) (2 * d.ns) m.z m.Z v) := by
    funext v
    simp only [extUpdate, scaledFun_eq, slackFun_eq, Dims.nv]
    rfl
  rw [hv]
  exact h

end Grad

/-- C43, nonlinear least squares: the value of the line search equals the value reported by the linearisation at the
same point, once the weight has been factorised. -/
theorem C43_nls_linesearch_value {K : Type*} [Field K] [DecidableEq K] [NeZero (2 : K)] (d : Dims) (o : NlsOpts)
    (e : Ext K) (m : NlsModel K) (mem out : NlsMem K) (hd : m.diag = isDiag d.ny m.W) (hW : Factorizes e d.ny m.W)
    (ho : o.integratorCost = false) (p : Point K) (h : nlsUpdate d o m (nlsFactor e m mem) p = some out) :
    nlsComputeFun d o m (nlsFactor e m mem) p = out.fn
    ∧ out.fn = m.scaling * (halfSq d.ny m.W (nlsRes m p) + slackCost (d.nu + d.nx) (2 * d.ns) m.z m.Z p.ux)
    ∧ (o.gaussNewton = true → ∀ i j, j ≤ i → out.RSQ i j = (if o.add then mem.RSQ i j else 0) + m.scaling *
        ∑ k ∈ range d.ny, ∑ l ∈ range d.ny, symL m.W k l * nlsJt d m p i k * nlsJt d m p j l) := by
  have hbil := fun x y => factor_bilin e d.ny m.W hW m.diag hd (nlsFactor e m mem).cholDiag (nlsFactor e m mem).chol
    (fun h => by simp [nlsFactor, h]) (fun h => by simp [nlsFactor, h]) x y
  have hfn : out.fn = m.scaling * (halfSq d.ny m.W (nlsRes m p)
      + slackCost (d.nu + d.nx) (2 * d.ns) m.z m.Z p.ux)
      ∧ nlsRSQ d o m (nlsFactor e m mem) p = some out.RSQ := by
    unfold nlsUpdate at h
    simp only [ho, Bool.false_eq_true, if_false, Option.map_eq_some_iff] at h
    obtain ⟨H, hH, rfl⟩ := h
    refine ⟨?_, hH⟩
    simp only [scaledFun_eq, symv_dot, slackFun_eq, Dims.nv]
  have hR : (nlsFactor e m mem).RSQ = mem.RSQ := by unfold nlsFactor; split <;> rfl
  generalize nlsFactor e m mem = mem' at h hbil hfn hR ⊢
  refine ⟨?_, hfn.1, ?_⟩
  · rw [hfn.1]
    unfold nlsComputeFun
    simp only [ho, Bool.false_eq_true, if_false, scaledFun_eq, slackFun_eq, Dims.nv]
    have : ∀ y, (if m.diag = true then mem'.cholDiag y * nlsRes m p y else ∑ k ∈ Ico y d.ny, mem'.chol k y * nlsRes m p k)
        = timesFactor d.ny m.diag mem'.cholDiag mem'.chol (nlsRes m p) y := by
      intro y
      unfold timesFactor
      split
      · exact mul_comm _ _
      · exact sum_congr rfl fun k _ => mul_comm _ _
    simp only [this, hbil]
    rfl
  · intro hg i j hij
    have h2 := hfn.2
    unfold nlsRSQ at h2
    simp only [hg, if_true, Option.some.injEq] at h2
    rw [← h2]
    have : ∀ i y, nlsTimesChol d m mem' p i y = timesFactor d.ny m.diag mem'.cholDiag mem'.chol (nlsJt d m p i) y := by
      intro i y
      unfold nlsTimesChol timesFactor gemmNd trmm
      split <;> rfl
    simp only [syrk, if_pos hij, this, hbil, hR]
    split <;> ring

/-- C43 with the cost integrated along the dynamics (`cost_discretization` INTEGRATOR): value and gradient of the
least-squares part come from the integrator (`F`, `G`); the module adds the slack penalty. They are consistent when
`scaling = 1`. -/
theorem C43_nls_integrator_partial (d : Dims) (o : NlsOpts) (ho : o.integratorCost = true)
    (m : NlsModel ℝ) (hs : m.scaling = 1) (mem : (Nat → ℝ) → NlsMem ℝ) (ζ : (Nat → ℝ) → Nat → ℝ) (dz : (Nat → ℝ) → Nat → Nat → ℝ)
    (w : Nat → ℝ) (hF : HasGrad (d.nu + d.nx) (fun v => (mem v).fn) (mem w).grad w)
    (out : (Nat → ℝ) → NlsMem ℝ) (hout : ∀ v, nlsUpdate d o m (mem v) (pt ζ dz v) = some (out v)) :
    HasGrad (d.nu + d.nx + 2 * d.ns) (fun v => (out v).fn) (out w).grad w := by
  have h := HasGrad.stage (d.nu + d.nx) (2 * d.ns) 1 hF m.z m.Z
  have ho' : ∀ v, (out v).fn = 1 * ((mem v).fn + slackCost (d.nu + d.nx) (2 * d.ns) m.z m.Z v)
      ∧ (out v).grad = fun i => if i < d.nv then (mem v).grad i else slackGrad d.nv m.z m.Z v (i - d.nv) := by
    intro v
    have := hout v
    unfold nlsUpdate at this
    simp only [ho, if_true, Option.some.injEq] at this
    rw [← this]
    refine ⟨?_, ?_⟩
    · simp only [slackFun_eq, Dims.nv, one_mul]
      rfl
    · simp only [hs, scaledFun_eq, one_mul]
      rfl
  rw [show (fun v => (out v).fn) = _ from funext fun v => (ho' v).1, (ho' w).2]
  refine h.congr fun i _ => ?_
  rw [scaledGrad_eq, one_mul]
  rfl

/-- In the same mode with `scaling ≠ 1`, the slack penalty is added to the value without the scaling while its gradient
is scaled (`ocp_nlp_cost_nls.c` lines 1001-1024): the gradient is not the derivative of the value. -/
theorem C43_nls_integrator_slack_inconsistent :
    ∃ (d : Dims) (o : NlsOpts) (m : NlsModel ℝ) (mem : NlsMem ℝ) (w : Nat → ℝ) (out : (Nat → ℝ) → NlsMem ℝ),
      o.integratorCost = true ∧ HasGrad (d.nu + d.nx) (fun _ => mem.fn) mem.grad w
      ∧ (∀ v, nlsUpdate d o m mem (pt (fun _ _ => 0) (fun _ _ _ => 0) v) = some (out v))
      ∧ ¬ HasGrad (d.nu + d.nx + 2 * d.ns) (fun v => (out v).fn) (out w).grad w := by
  let m : NlsModel ℝ := ⟨fun _ _ => 1, fun _ => 0, fun _ => 0, fun _ => 1, 2, false, fun _ _ _ => 0, fun _ _ _ _ => 0,
    fun _ _ _ _ => 0, fun _ _ _ _ _ => 0⟩
  let mem : NlsMem ℝ := ⟨fun _ _ => 0, fun _ => 0, fun _ _ => 0, fun _ => 0, 0⟩
  refine ⟨⟨1, 0, 0, 1, 1⟩, ⟨true, true, false⟩, m, mem, fun _ => 0,
    fun v => (nlsUpdate ⟨1, 0, 0, 1, 1⟩ ⟨true, true, false⟩ m mem (pt (fun _ _ => 0) (fun _ _ _ => 0) v)).getD mem, rfl,
    HasGrad.const 0 _, fun v => rfl, ?_⟩
  intro h
  have hd : ∀ i < 0 + 1 + 2 * 1, HasDerivAt (fun t : ℝ => t) (1 : ℝ) 0 := fun i _ => hasDerivAt_id 0
  have h1 := h (fun t _ => t) (fun _ => 1) rfl hd
  have hfn : (fun t : ℝ => ((nlsUpdate ⟨1, 0, 0, 1, 1⟩ ⟨true, true, false⟩ m mem
      (pt (fun _ _ => 0) (fun _ _ _ => 0) fun _ => t)).getD mem).fn) = fun t => 2 * t := by
    funext t
    simp only [nlsUpdate, if_true, Option.getD_some, slackFun_eq, m, mem, slackCost, pt]
    rw [show 2 * 1 = 2 from rfl, sum_range_succ, sum_range_one]
    ring
  have h2 : HasDerivAt (fun t : ℝ => 2 * t) (2 * 1) 0 := (hasDerivAt_id (0 : ℝ)).const_mul 2
  simp only [] at h1
  rw [hfn] at h1
  have h3 := h1.unique h2
  simp [nlsUpdate, scaledFun_eq, slackGrad, m, mem, pt, Dims.nv, sum_range_succ] at h3

/-! ### C56: Hessian of the external cost with algebraic variables -/

section Ext
variable {K : Type*} [Field K] [DecidableEq K]

/-- C56 (part): without algebraic variables, or when the mixed block is passed in a form that agrees with what
`dsyr2k` reads (`B i k = ∂²/∂z_k∂w_i`), the Hessian is the scaled projected Hessian. -/
theorem C56_ext_hessian_partial (d : Dims) (oob : Nat → Nat → K) (m : ExtModel K) (p : Point K) (i j : Nat)
    (h : ∀ k < d.nz, (if i < d.nz then m.hzux p.ux p.z i k else oob i k) = m.hzux p.ux p.z k i
      ∧ (if j < d.nz then m.hzux p.ux p.z j k else oob j k) = m.hzux p.ux p.z k j) :
    extHess d oob m p i j
      = m.scaling * projHess d.nz (m.hux p.ux p.z) (m.hzz p.ux p.z) (m.hzux p.ux p.z) p.dz i j := by
  unfold extHess projHess
  split
  · simp only [mul_add]
    congr 2
    · congr 1
      refine sum_congr rfl fun k hk => ?_
      obtain ⟨h1, h2⟩ := h k (mem_range.1 hk)
      rw [h1, h2]
      ring
    · refine sum_congr rfl fun k _ => ?_
      rw [mul_sum]
      exact sum_congr rfl fun l _ => by ring
  · next hz =>
    have : d.nz = 0 := by omega
    simp [this]

/-- C56 without algebraic variables. -/
theorem C56_ext_hessian_no_z_partial (d : Dims) (hz : d.nz = 0) (oob : Nat → Nat → K) (m : ExtModel K) (p : Point K)
    (i j : Nat) : extHess d oob m p i j
      = m.scaling * projHess d.nz (m.hux p.ux p.z) (m.hzz p.ux p.z) (m.hzux p.ux p.z) p.dz i j :=
  C56_ext_hessian_partial d oob m p i j fun k hk => by omega

end Ext

/-- The claim is false of the code: for `nu + nx = nz = 2` (no out-of-bounds access) the mixed block enters
transposed. The cost is `l(x, z) = x_0 z_1` with `z = (x_1, x_0)`, that is `x_0²`: the true entry `(0, 0)` is 2, the code
computes 0. -/
theorem C56_ext_hessian_cross_term_wrong :
    ∃ (d : Dims) (m : ExtModel ℚ) (p : Point ℚ), d.nz = d.nu + d.nx ∧ ∀ oob,
      ∃ i < d.nu + d.nx, ∃ j ≤ i, extHess d oob m p i j
        ≠ m.scaling * projHess d.nz (m.hux p.ux p.z) (m.hzz p.ux p.z) (m.hzux p.ux p.z) p.dz i j := by
  refine ⟨⟨2, 0, 2, 0, 0⟩, ⟨fun _ => 0, fun _ => 0, 1, fun w z => w 0 * z 1,
      fun w z i => if i = 0 then z 1 else if i = 3 then w 0 else 0, fun _ _ _ _ => 0, fun _ _ _ _ => 0,
      fun _ _ k i => if k = 1 ∧ i = 0 then 1 else 0⟩,
    ⟨fun _ => 1, fun _ => 1, fun i k => if i + k = 1 then 1 else 0⟩, rfl, fun oob => ⟨0, by decide, 0, le_refl _, ?_⟩⟩
  norm_num [extHess, projHess, sum_range_succ]

/-- With fewer algebraic variables than controls and states the Hessian depends on memory outside the mixed block. -/
theorem C56_ext_hessian_reads_outside :
    ∃ (d : Dims) (m : ExtModel ℚ) (p : Point ℚ) (oob oob' : Nat → Nat → ℚ), 0 < d.nz ∧ d.nz < d.nu + d.nx
      ∧ ∃ i < d.nu + d.nx, ∃ j ≤ i, extHess d oob m p i j ≠ extHess d oob' m p i j := by
  refine ⟨⟨2, 0, 1, 0, 0⟩, ⟨fun _ => 0, fun _ => 0, 1, fun _ z => z 0, fun _ _ i => if i = 2 then 1 else 0,
      fun _ _ _ _ => 0, fun _ _ _ _ => 0, fun _ _ _ _ => 0⟩,
    ⟨fun _ => 1, fun _ => 1, fun _ _ => 1⟩, fun _ _ => 0, fun _ _ => 1, by decide, by decide, 1, by decide, 1, le_refl _, ?_⟩
  norm_num [extHess]

/-! ### Non-vacuity -/

/-- a nonlinear algebraic variable `z = x²` and its Jacobian -/
example : HasGrad (0 + 1) (fun v => v 0 * v 0) (fun i => if i = 0 then 2 * 3 else 0) (fun _ => (3 : ℝ)) := by
  refine ((HasGrad.coord (n := 0 + 1) 0 (by omega) (fun _ => (3 : ℝ))).mul
    (HasGrad.coord 0 (by omega) (fun _ => (3 : ℝ)))).congr fun i hi => ?_
  obtain rfl : i = 0 := by omega
  norm_num

/-- a residual function of `(x, z)` satisfying the hypothesis of `C43_nls_gradient` -/
example : HasGrad2 1 1 (fun v z => v 0 * z 0) (fun _ => 5) (fun _ => 3) (fun _ => (3 : ℝ)) (fun _ => 5) := by
  intro c e d d' hc he hd hd'
  have := (hd 0 (by omega)).mul (hd' 0 (by omega))
  refine this.congr_deriv ?_
  simp [hc, he]
  ring

end Acados.Cost
