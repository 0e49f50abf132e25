import Verif.Lemmas.CostForm
import Mathlib.Algebra.Order.Ring.Rat
import Mathlib.Tactic.NormNum
/-!
# C84: reformulating the cost of a description does not change the cost
-/
namespace Acados.CostForm
open Finset
variable {K F : Type} [Field K]

/-- **C84** (translation to EXTERNAL).  If `translate_cost_to_external_cost` returns, then every cost term that was given is an
EXTERNAL cost, a missing initial cost is still missing, and at all values of all symbols the cost of every term is what it was
before, with the references and weights given as arguments in place of those of the description. -/
theorem C84_external (L : Lang K F) (p pg : AddP K) (a0 ap ae : TermArg K F) (h : HessKind) (o o' : Ocp K F)
    (ht : translateCost L p pg a0 ap ae h o = .ok o') (st : Stage) :
    (o'.cost st).kind = (if (o.cost st).kind = none then none else some .external)
    ∧ ∀ v : Env K, costValue L o' st (o'.cost st) v
        = costValue L o st (match st with
            | .initial => o.c0.withRef a0.yref a0.W
            | .path => o.cp.withRef ap.yref ap.W
            | .terminal => o.ce.withRef ae.yref ae.W) v := by
  have hk := addParams_keeps p pg o
  unfold translateCost at ht
  split at ht
  · cases ht
  · rename_i o₁ ho₁
    rw [ho₁] at hk
    obtain ⟨k1, k2, k3, k4⟩ := hk
    change o₁.nx = o.nx at k1; change o₁.nu = o.nu at k2; change o₁.nz = o.nz at k3; change o₁.cost = o.cost at k4
    have k5 : o₁.c0 = o.c0 := congrFun k4 .initial
    have k6 : o₁.cp = o.cp := congrFun k4 .path
    have k7 : o₁.ce = o.ce := congrFun k4 .terminal
    rw [k1, k2, k3, k5] at ht
    split at ht
    · cases ht
    · rename_i c0 hc0
      dsimp only at ht
      rw [k6] at ht
      split at ht
      · cases ht
      · rename_i cp hcp
        rw [k7] at ht
        split at ht
        · cases ht
        · rename_i ce hce
          cases ht
          cases st
          · refine ⟨(translateTerm_value L _ _ _ _ _ _ h _ _ hc0 fun _ => 0).2, fun v => ?_⟩
            have := (translateTerm_value L _ _ _ _ _ _ h _ _ hc0 v).1
            unfold costValue
            dsimp only [Ocp.cost]
            exact this
          · refine ⟨(translateTerm_value L _ _ _ _ _ _ h _ _ hcp fun _ => 0).2, fun v => ?_⟩
            have := (translateTerm_value L _ _ _ _ _ _ h _ _ hcp v).1
            unfold costValue
            dsimp only [Ocp.cost]
            exact this
          · refine ⟨(translateTerm_value L _ _ _ _ _ _ h _ _ hce fun _ => 0).2, fun v => ?_⟩
            have := (translateTerm_value L _ _ _ _ _ _ h _ _ hce v).1
            unfold costValue
            dsimp only [Ocp.cost]
            exact this

/-- **C84** (when it returns).  `translate_cost_to_external_cost` returns exactly if values are given for all additional
parameters and every term can be translated. -/
theorem C84_external_ok (L : Lang K F) (p pg : AddP K) (a0 ap ae : TermArg K F) (h : HessKind) (o : Ocp K F) :
    (translateCost L p pg a0 ap ae h o).isOk = true ↔
      ParamsGiven p ∧ ParamsGiven pg ∧ Accepts o.nx o.nu o.nz .initial h a0.yref a0.W o.c0
        ∧ Accepts o.nx o.nu o.nz .path h ap.yref ap.W o.cp ∧ Accepts o.nx o.nu o.nz .terminal h ae.yref ae.W o.ce := by
  have hk := addParams_keeps p pg o
  have hp : (addParams p pg o).isOk = true ↔ ParamsGiven p ∧ ParamsGiven pg := addParams_ok p pg o
  unfold translateCost
  split
  · rename_i o₁ ho₁
    rw [ho₁] at hp
    exact ⟨fun x => (by cases x), fun x => by have := hp.2 ⟨x.1, x.2.1⟩; cases this⟩
  · rename_i o₁ ho₁
    rw [ho₁] at hp hk
    have hp' := hp.1 rfl
    obtain ⟨k1, k2, k3, k4⟩ := hk
    change o₁.nx = o.nx at k1; change o₁.nu = o.nu at k2; change o₁.nz = o.nz at k3; change o₁.cost = o.cost at k4
    have k5 : o₁.c0 = o.c0 := congrFun k4 .initial
    have k6 : o₁.cp = o.cp := congrFun k4 .path
    have k7 : o₁.ce = o.ce := congrFun k4 .terminal
    rw [k1, k2, k3, k5]
    have t0 := translateTerm_ok L o.nx o.nu o.nz .initial a0.yref a0.W h o.c0
    have tp := translateTerm_ok L o.nx o.nu o.nz .path ap.yref ap.W h o.cp
    have te := translateTerm_ok L o.nx o.nu o.nz .terminal ae.yref ae.W h o.ce
    split
    · rename_i c hc
      rw [hc] at t0
      exact ⟨fun x => (by cases x), fun x => by have := t0.2 x.2.2.1; cases this⟩
    · rename_i c0 hc0
      rw [hc0] at t0
      dsimp only
      rw [k6]
      split
      · rename_i c hc
        rw [hc] at tp
        exact ⟨fun x => (by cases x), fun x => by have := tp.2 x.2.2.2.1; cases this⟩
      · rename_i cp hcp
        rw [hcp] at tp
        rw [k7]
        split
        · rename_i c hc
          rw [hc] at te
          exact ⟨fun x => (by cases x), fun x => by have := te.2 x.2.2.2.2; cases this⟩
        · rename_i ce hce
          rw [hce] at te
          exact ⟨fun _ => ⟨hp'.1, hp'.2, t0.1 rfl, tp.1 rfl, te.1 rfl⟩, fun _ => rfl⟩

/-- **C84** (parameters).  Numbers of symbols and of values stay equal, whether the call returns or raises. -/
theorem C84_params (L : Lang K F) (p pg : AddP K) (a0 ap ae : TermArg K F) (h : HessKind) (o : Ocp K F)
    (h1 : o.pVals.length = o.np) (h2 : o.pGlobalVals.length = o.npGlobal) :
    (translateCost L p pg a0 ap ae h o).st.pVals.length = (translateCost L p pg a0 ap ae h o).st.np
    ∧ (translateCost L p pg a0 ap ae h o).st.pGlobalVals.length = (translateCost L p pg a0 ap ae h o).st.npGlobal := by
  have hp : (addParams p pg o).st.pVals.length = (addParams p pg o).st.np
      ∧ (addParams p pg o).st.pGlobalVals.length = (addParams p pg o).st.npGlobal := addParams_lengths p pg o h1 h2
  unfold translateCost
  split
  · rename_i o₁ ho₁; rw [ho₁] at hp; exact hp
  · rename_i o₁ ho₁
    rw [ho₁] at hp
    split
    · exact hp
    · dsimp only
      split
      · exact hp
      · split
        · exact hp
        · exact hp

/-- **C84** (Gauss-Newton Hessian).  With `cost_hessian='GAUSS_NEWTON'` a NONLINEAR_LS term gets a custom Hessian with respect to
`[u; x]` (to `x` at the terminal stage), which is `Jᵀ W J` with the Jacobian `J` of `y`.  It differs from the Hessian of the new
cost by the curvature of `y` weighted by `W (y - yref)`, so it is exact wherever the second derivatives of `y` vanish; and the
gradient of the new cost is `Jᵀ W (y - yref)`. -/
theorem C84_gauss_newton (L : Lang K F) (h2 : (2 : K) ≠ 0) (nx nu nz : Nat) (st : Stage) (yref? : Option (Vec (Ex K F)))
    (W? : Option (Mat (Ex K F))) (c c' : SC K F) (hc : c.kind = some .nonlinearLs)
    (ht : translateTerm L nx nu nz st yref? W? .gaussNewton c = .ok c')
    (yref : Nat → Ex K F) (W : Nat → Nat → Ex K F) (hy : yref = (yref?.getD c.yref).e) (hW : W = (W?.getD c.W).e)
    (n : Nat) (hn : n = c.yref.len) (m : Nat) (hm : m = (if st = .terminal then 0 else nu))
    (hfy : ∀ i < n, ∀ a < m + nx, ¬ (yref i).occurs (uxSym m a))
    (hfW : ∀ i < n, ∀ j < n, ∀ a < m + nx, ¬ (W i j).occurs (uxSym m a)) (v : Env K)
    (hsym : ∀ i < n, ∀ j < n, (W i j).eval L v = (W j i).eval L v) :
    ∃ (H : Mat (Ex K F)) (ℓ : Ex K F), c'.hess = some H ∧ c'.ext = some ℓ ∧ H.rows = m + nx ∧ H.cols = m + nx ∧
      (∀ a < m + nx, (ℓ.diff L (uxSym m a)).eval L v = ∑ i ∈ range n, ∑ j ∈ range n,
        ((c.y.e i).diff L (uxSym m a)).eval L v * (W i j).eval L v * ((c.y.e j).eval L v - (yref j).eval L v)) ∧
      ∀ a < m + nx, ∀ b < m + nx,
        (H.e a b).eval L v = (∑ i ∈ range n, ∑ j ∈ range n,
          ((c.y.e i).diff L (uxSym m a)).eval L v * (W i j).eval L v * ((c.y.e j).diff L (uxSym m b)).eval L v)
        ∧ ((ℓ.diff L (uxSym m a)).diff L (uxSym m b)).eval L v = (H.e a b).eval L v + ∑ i ∈ range n, ∑ j ∈ range n,
          (((c.y.e i).diff L (uxSym m a)).diff L (uxSym m b)).eval L v * (W i j).eval L v
            * ((c.y.e j).eval L v - (yref j).eval L v) := by
  have hok : (translateTerm L nx nu nz st yref? W? .gaussNewton c).isOk = true := by rw [ht]; rfl
  obtain ⟨g1, g2, g3⟩ := translateTerm_tests L nx nu nz st yref? W? _ c hok
  rw [translateTerm_eq L nx nu nz st yref? W? _ c g1 g2 g3] at ht
  have hl := getD_len yref? c g2
  unfold translateBody at ht
  rw [hc] at ht
  dsimp only at ht
  split at ht
  · rename_i hs
    obtain ⟨s1, s2, s3⟩ := (nlsShapes_iff _ _ _).1 hs
    cases ht
    rw [if_pos rfl, ← hm]
    refine ⟨_, _, rfl, rfl, rfl, rfl, fun a ha => ?_, fun a ha b hb => ?_⟩
    · rw [hl, ← hn, ← hW, ← hy, quad_grad L v h2 _ n W _ (fun i hi j hj => hfW i hi j hj a ha) hsym]
      refine sum_congr rfl fun i hi => sum_congr rfl fun j hj => ?_
      unfold nlsRes
      rw [eval_diff_sub L v _ _ _ (hfy i (mem_range.1 hi) a ha), eval_sub]
    · have q : (((gnHess L nx m c (yref?.getD c.yref).e (W?.getD c.W)).e a b)).eval L v = (∑ i ∈ range n, ∑ j ∈ range n,
          ((c.y.e i).diff L (uxSym m a)).eval L v * (W i j).eval L v * ((c.y.e j).diff L (uxSym m b)).eval L v) := by
        show (sumE (W?.getD c.W).rows _).eval L v = _
        rw [eval_sumE, s2, hl, ← hn, Finset.sum_comm]
        refine sum_congr rfl fun j hj => ?_
        rw [eval_mul, eval_sumE, sum_mul]
        refine sum_congr rfl fun i hi => ?_
        rw [eval_mul, ← hy, ← hW]
        unfold nlsRes
        rw [eval_diff_sub L v _ _ _ (hfy i (mem_range.1 hi) a ha), eval_diff_sub L v _ _ _ (hfy j (mem_range.1 hj) b hb)]
      refine ⟨q, ?_⟩
      rw [q, hl, ← hn, ← hW, ← hy, quad_hess L v h2 _ _ n W _ (fun i hi j hj => hfW i hi j hj a ha)
        (fun i hi j hj => hfW i hi j hj b hb) hsym]
      congr 1
      · refine sum_congr rfl fun i hi => sum_congr rfl fun j hj => ?_
        unfold nlsRes
        rw [eval_diff_sub L v _ _ _ (hfy i (mem_range.1 hi) a ha), eval_diff_sub L v _ _ _ (hfy j (mem_range.1 hj) b hb)]
      · refine sum_congr rfl fun i hi => sum_congr rfl fun j hj => ?_
        unfold nlsRes
        rw [eval_diff2_sub L v _ _ _ _ (hfy i (mem_range.1 hi) b hb), eval_sub]
  · cases ht

/-- **C84** (translation to CONVEX_OVER_NONLINEAR).  If `translate_nls_cost_to_conl` returns, every given cost term is a
CONVEX_OVER_NONLINEAR cost, a missing initial cost is still missing, nothing but the cost is changed, and at all values of all
symbols, also for references that are changed later, the cost of every term is what it was before. -/
theorem C84_conl (L : Lang K F) (o o' : Ocp K F) (h : translateConl o = .ok o') (st : Stage) :
    (o'.cost st).kind = (if (o.cost st).kind = none then none else some .conl)
    ∧ (o'.cost st).yref = (o.cost st).yref ∧ (o'.cost st).y = (o.cost st).y
    ∧ ∀ (yref : Option (Vec (Ex K F))) (v : Env K),
        costValue L o' st ((o'.cost st).withRef yref none) v = costValue L o st ((o.cost st).withRef yref none) v := by
  have key : ∀ (s : Stage) (c c' : SC K F), nlsToConl s c = .ok c' → c'.yref = c.yref ∧ c'.y = c.y
      ∧ ∀ yref, nlsToConl s (c.withRef yref none) = .ok (c'.withRef yref none) := by
    intro s c c' hc
    unfold nlsToConl at hc
    rcases hk : c.kind with _ | _ | _ | _ | _ | _ <;> rw [hk] at hc <;> dsimp only at hc
    · split at hc
      · rename_i hs
        cases hc
        refine ⟨rfl, rfl, fun yref => ?_⟩
        unfold nlsToConl
        rw [show (c.withRef yref none).kind = c.kind from rfl, hk]
        dsimp only
        rw [if_pos hs]
      · cases hc
    · cases hc
    · split at hc
      · rename_i hs
        cases hc
        refine ⟨rfl, rfl, fun yref => ?_⟩
        unfold nlsToConl
        rw [show (c.withRef yref none).kind = c.kind from rfl, hk]
        dsimp only
        rw [show (c.withRef yref none).W = c.W from rfl, show (c.withRef yref none).y = c.y from rfl, if_pos hs]
        rfl
      · cases hc
    · cases hc
      refine ⟨rfl, rfl, fun yref => ?_⟩
      unfold nlsToConl
      rw [show (c.withRef yref none).kind = c.kind from rfl, hk]
    · cases hc
    · cases hc
  have val : ∀ (s : Stage) (c c' : SC K F), nlsToConl s c = .ok c' → ∀ (yref : Option (Vec (Ex K F))) (v : Env K),
      costValue L o s (c'.withRef yref none) v = costValue L o s (c.withRef yref none) v := by
    intro s c c' hc yref v
    have := (key s c c' hc).2.2 yref
    unfold costValue
    rw [(nlsToConl_value L o.nx 0 0 s _ _ this v).1, (nlsToConl_value L o.nx o.nu o.nz s _ _ this v).1]
  unfold translateConl at h
  split at h
  · cases h
  · rename_i c0 h0
    dsimp only at h
    split at h
    · cases h
    · rename_i cp hp
      split at h
      · cases h
      · rename_i ce he
        cases h
        cases st
        · exact ⟨(nlsToConl_value L 0 0 0 _ _ _ h0 fun _ => 0).2, (key _ _ _ h0).1, (key _ _ _ h0).2.1, val _ _ _ h0⟩
        · exact ⟨(nlsToConl_value L 0 0 0 _ _ _ hp fun _ => 0).2, (key _ _ _ hp).1, (key _ _ _ hp).2.1, val _ _ _ hp⟩
        · exact ⟨(nlsToConl_value L 0 0 0 _ _ _ he fun _ => 0).2, (key _ _ _ he).1, (key _ _ _ he).2.1, val _ _ _ he⟩

/-- **C84** (initial cost).  After `copy_path_cost_to_stage_0` the initial cost is the path cost, at all values of all symbols and
for all references and weights; the other terms are not changed. -/
theorem C84_copy (L : Lang K F) (o : Ocp K F) :
    (copyPath o).cp = o.cp ∧ (copyPath o).ce = o.ce
    ∧ ∀ (yref : Option (Vec (Ex K F))) (W : Option (Mat (Ex K F))) (v : Env K),
        costValue L (copyPath o) .initial ((copyPath o).c0.withRef yref W) v = costValue L o .path (o.cp.withRef yref W) v := by
  refine ⟨rfl, rfl, fun yref W v => ?_⟩
  rfl

/-- the full statement: the initial stage also takes over everything else that describes the cost -/
def CopyComplete (K F : Type) : Prop := ∀ o : Ocp K F, (copyPath o).c0 = o.cp

/-- a cost `ψ(r) = r⁴` of one residual `x - yref` with a custom Hessian of `ψ` -/
def conlOcp (yref : ℚ) : Ocp ℚ Unit :=
  let r : Ex ℚ Unit := .sym (.r 0)
  let c : SC ℚ Unit :=
    { kind := some .conl, Vx := .nil, Vu := .nil, Vz := .nil, W := .nil, yref := ⟨1, fun _ => .const yref⟩
      y := ⟨1, fun _ => .sym (.x 0)⟩, nr := 1, psi := some (.mul (.mul r r) (.mul r r)), ext := none, hess := none
      outer := some ⟨1, 1, fun _ _ => .const 1⟩ }
  { nx := 1, nu := 1, nz := 0, c0 := { c with kind := none, outer := none }, cp := c, ce := c, np := 0, pVals := [], npGlobal := 0
    pGlobalVals := [] }

/-- **C84** (refuted): the custom Hessian of `ψ` is not copied to the initial stage, where the exact Hessian is used instead. -/
theorem C84_copy_false : ¬ CopyComplete ℚ Unit := by
  intro h
  have := congrArg (fun c => c.outer.isSome) (h (conlOcp 0))
  exact absurd this (by decide)

/-- **C84** (cost expressions).  `get_*_cost_expression` evaluates to the cost of the stage, with the reference given, for LINEAR_LS
with a weight on the states, NONLINEAR_LS and EXTERNAL costs, and for CONVEX_OVER_NONLINEAR costs whose reference is zero. -/
theorem C84_get_partial (L : Lang K F) (o : Ocp K F) (st : Stage) (yref? : Option (Vec (Ex K F))) (e : Ex K F)
    (h : getExpr o.nx o.nu o.nz st yref? (o.cost st) = some e)
    (hx : (o.cost st).kind = some .linearLs → 0 < o.nx ∧ ((o.cost st).Vx.rows = 0 ∨ (o.cost st).Vx.cols = 0 → (o.cost st).W.rows = 0))
    (v : Env K)
    (hc : (o.cost st).kind = some .conl → ∀ i, ((yref?.getD (o.cost st).yref).e i).eval L v = 0) :
    some (e.eval L v) = costValue L o st ((o.cost st).withRef yref? none) v := by
  generalize hcost : o.cost st = c at *
  have red : ∀ q : Option K, (∀ n m, value L o.nx n m (c.withRef yref? none) v = q) →
      costValue L o st (c.withRef yref? none) v = q := by
    intro q hq; unfold costValue; split <;> rw [hq]
  unfold getExpr at h
  rcases hk : c.kind with _ | _ | _ | _ | _ | _ <;> rw [hk] at h <;> dsimp only at h
  · cases h
  · obtain ⟨hnx, hW⟩ := hx hk
    have val : ∀ n m, value L o.nx n m (c.withRef yref? none) v = some (wls c.W.rows
          (fun i j => (c.W.e i j).eval L v) (fun i =>
          (∑ j ∈ range o.nx, c.Vx.at i j * v (.x j)) + (∑ j ∈ range n, c.Vu.at i j * v (.u j))
            + (∑ j ∈ range m, c.Vz.at i j * v (.z j)) - ((yref?.getD c.yref).e i).eval L v)) := fun n m => by
        unfold value; rw [show (c.withRef yref? none).kind = c.kind from rfl, hk]; rfl
    split at h
    · rename_i he
      cases h
      rw [red (some 0)]
      · rfl
      · intro n m
        rw [val, hW (by unfold Mat.isEmpty at he; simpa using he)]
        unfold wls
        rw [range_zero, sum_empty, mul_zero]
    · split at h
      · rename_i hs
        unfold getShapes at hs
        simp only [Bool.and_eq_true, beq_iff_eq, Bool.or_eq_true, decide_eq_true_eq] at hs
        obtain ⟨⟨⟨⟨x1, x2⟩, x3⟩, x4⟩, x5⟩ := hs
        cases h
        rw [eval_quadE]
        by_cases hst : st = .terminal
        · unfold costValue
          rw [if_pos hst, val, x3]
          congr 1
          refine wls_congr (fun _ _ _ _ => rfl) fun i hi => ?_
          rw [if_pos hst, eval_sub, eval_rowE L v _ _ _ _ (by omega) x2]
          simp
        · obtain ⟨⟨y1, y2⟩, y3⟩ := x5.resolve_left hst
          unfold costValue
          rw [if_neg hst, val, x3]
          congr 1
          refine wls_congr (fun _ _ _ _ => rfl) fun i hi => ?_
          rw [if_neg hst, eval_sub]
          by_cases hz : o.nz = 0
          · rw [if_pos hz, hz]
            show (rowE _ _ _ _).eval L v + (rowE _ _ _ _).eval L v - _ = _
            rw [eval_rowE L v _ _ _ _ (by omega) x2, eval_rowE L v _ _ _ _ (by omega) y2]
            simp
          · obtain ⟨z1, z2⟩ := y3.resolve_left hz
            rw [if_neg hz]
            show (rowE _ _ _ _).eval L v + (rowE _ _ _ _).eval L v + (rowE _ _ _ _).eval L v - _ = _
            rw [eval_rowE L v _ _ _ _ (by omega) x2, eval_rowE L v _ _ _ _ (by omega) y2, eval_rowE L v _ _ _ _ (by omega) z2]
      · cases h
  · split at h
    · rename_i hs
      obtain ⟨-, hr, -⟩ := (nlsShapes_iff _ _ _).1 hs
      cases h
      rw [red]
      intro n m
      unfold value; rw [show (c.withRef yref? none).kind = c.kind from rfl, hk, eval_quadE, ← hr]
      show some (wls c.W.rows _ _) = _
      congr 1
      refine wls_congr (fun _ _ _ _ => rfl) fun i _ => ?_
      exact (eval_sub L v _ _).symm
    · cases h
  · rcases hψ : c.psi with _ | ψ
    · rw [hψ] at h; cases h
    · rw [hψ] at h
      cases h
      rw [red]
      intro n m
      unfold value; rw [show (c.withRef yref? none).kind = c.kind from rfl, hk]
      show c.psi.map _ = _
      rw [hψ, eval_substR]
      show some (ψ.eval L (v.withR fun i => (c.y.e i).eval L v - ((yref?.getD c.yref).e i).eval L v)) = _
      congr 3
      funext i
      rw [hc hk i, sub_zero]
  · rw [red (some (e.eval L v))]
    intro n m
    unfold value; rw [show (c.withRef yref? none).kind = c.kind from rfl, hk]
    show c.ext.map _ = _
    rw [h]; rfl
  · cases h

/-- the full statement, for all cost types -/
def GetIsCost (K F : Type) [Field K] : Prop :=
  ∀ (L : Lang K F) (o : Ocp K F) (st : Stage) (e : Ex K F), 0 < o.nx → getExpr o.nx o.nu o.nz st none (o.cost st) = some e →
    ∀ v : Env K, some (e.eval L v) = costValue L o st (o.cost st) v

/-- a language without function symbols -/
def noFun : Lang ℚ Unit := ⟨fun _ _ _ => 0, id, id⟩

/-- **C84** (refuted): for a CONVEX_OVER_NONLINEAR cost the reference is not subtracted.  With `ψ(r) = r⁴`, `y = x` and reference
1, the cost at `x = 1` is 0, the expression has the value 1. -/
theorem C84_get_false : ¬ GetIsCost ℚ Unit := by
  intro h
  have := h noFun (conlOcp 1) .path _ (by decide) rfl (fun _ => 1)
  revert this
  show ¬ (some ((1 : ℚ) * 1 * (1 * 1)) = some ((1 - 1) * (1 - 1) * ((1 - 1) * (1 - 1))))
  norm_num

/-- the full statement: a call that raises leaves the description unchanged -/
def TranslateAtomic (K F : Type) [Field K] : Prop :=
  ∀ (L : Lang K F) (p pg : AddP K) (a0 ap ae : TermArg K F) (h : HessKind) (o : Ocp K F),
    (translateCost L p pg a0 ap ae h o).isOk = false → (translateCost L p pg a0 ap ae h o).st = o

/-- **C84** (refuted): a call that raises leaves the new parameters appended, so that a second, corrected call appends them
again. -/
theorem C84_atomic_false : ¬ TranslateAtomic ℚ Unit := by
  intro h
  have := congrArg (fun o => o.np) (h noFun (some (1, some [5])) none {} {} {} .gaussNewton (conlOcp 0) rfl)
  exact absurd this (by decide)

/-! ### non-vacuity -/

/-- `½ (x² + u - yref)²·3` as NONLINEAR_LS, `½ (2x + u - p₀)²` as LINEAR_LS with a symbolic reference, a terminal CONL cost -/
def exOcp : Ocp ℚ Unit :=
  let base : SC ℚ Unit :=
    { kind := none, Vx := .nil, Vu := .nil, Vz := .nil, W := .nil, yref := .nil, y := .nil, nr := 0, psi := none, ext := none
      hess := none, outer := none }
  { nx := 1, nu := 1, nz := 0
    c0 := { base with
      kind := some .nonlinearLs, W := ⟨1, 1, fun _ _ => .const 3⟩, yref := ⟨1, fun _ => .const 2⟩
      y := ⟨1, fun _ => .add (.mul (.sym (.x 0)) (.sym (.x 0))) (.sym (.u 0))⟩ }
    cp := { base with
      kind := some .linearLs, Vx := ⟨1, 1, fun _ _ => 2⟩, Vu := ⟨1, 1, fun _ _ => 1⟩, W := ⟨1, 1, fun _ _ => .const 1⟩
      yref := ⟨1, fun _ => .const 2⟩ }
    ce := (conlOcp 1).ce, np := 0, pVals := [], npGlobal := 0, pGlobalVals := [] }

/-- values `x = 3`, `u = 5`, `p = 7` -/
def exEnv : Env ℚ
  | .x _ => 3
  | .u _ => 5
  | .p _ => 7
  | _ => 0

def isOkCost (L : Lang ℚ Unit) (st : Stage) (o : Out (Ocp ℚ Unit)) : Option ℚ :=
  if o.isOk then costValue L o.st st (o.st.cost st) exEnv else none

/-- the translation of all three terms, with the reference of the path cost replaced by the new parameter -/
example : isOkCost noFun .initial (translateCost noFun (some (1, some [7])) none {} { yref := some ⟨1, fun _ => .sym (.p 0)⟩ } {}
      .exact exOcp) = some 216
    ∧ isOkCost noFun .path (translateCost noFun (some (1, some [7])) none {} { yref := some ⟨1, fun _ => .sym (.p 0)⟩ } {}
      .exact exOcp) = some 8
    ∧ isOkCost noFun .terminal (translateCost noFun (some (1, some [7])) none {} { yref := some ⟨1, fun _ => .sym (.p 0)⟩ } {}
      .exact exOcp) = some 16 := by decide +kernel

/-- the Gauss-Newton Hessian of the initial term with respect to `x`, `J = 2x`: `6·3·6 = 108`; the exact one adds `2·3·12` -/
example : (match translateTerm noFun 1 1 0 .initial none none .gaussNewton exOcp.c0 with
      | .ok c => (c.hess.map fun H => (H.e 1 1).eval noFun exEnv, c.ext.map fun e => ((e.diff noFun (.x 0)).diff noFun (.x 0)).eval noFun exEnv)
      | .raised _ => (none, none)) = (some 108, some 180) := by decide +kernel

/-- its weight and reference do not contain inputs or states -/
example : (∀ i < 1, ∀ a < 2, ¬ (exOcp.c0.yref.e i).occurs (uxSym 1 a))
    ∧ ∀ i < 1, ∀ j < 1, ∀ a < 2, ¬ (exOcp.c0.W.e i j).occurs (uxSym 1 a) :=
  ⟨fun _ _ _ _ x => x, fun _ _ _ _ _ _ x => x⟩

/-- a description whose NONLINEAR_LS terms are translated to CONVEX_OVER_NONLINEAR -/
def exNls : Ocp ℚ Unit := { exOcp with cp := exOcp.c0 }

example : isOkCost noFun .initial (translateConl exNls) = some 216 ∧ isOkCost noFun .path (translateConl exNls) = some 216
    ∧ isOkCost noFun .terminal (translateConl exNls) = some 16 := by decide +kernel

/-- expressions exist for the three types of `C84_get_partial` -/
example : (getExpr 1 1 0 .initial none exOcp.c0).isSome = true ∧ (getExpr 1 1 0 .path none exOcp.cp).isSome = true
    ∧ (getExpr 1 1 0 .terminal (some ⟨1, fun _ => .const 0⟩) exOcp.ce).isSome = true := by decide +kernel

end Acados.CostForm
