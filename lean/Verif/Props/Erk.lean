import Verif.Spec.Ode
import Verif.Lemmas.Erk
import Mathlib.Analysis.Calculus.FDeriv.Prod
import Mathlib.Analysis.Calculus.FDeriv.Linear
import Mathlib.Data.Real.Basic
import Mathlib.Tactic.NormNum
/-!
# C38: the explicit integrator returns the Runge-Kutta solution and its exact derivatives
-/
namespace Acados.Erk
open Finset

section
variable {K : Type*} [Field K] [DecidableEq K]

theorem hat_iterate {nx nu np : Nat} (o : Ode K nx nu np) (ns : Nat) (a : Nat → Nat → K) (b : Nat → K) (h : K)
    (N : Nat) (x : Fin nx → K) (u : Fin nu → K) (p : Fin np → K) :
    (Rk.step (hat o) ns a b h)^[N] (x, u, p) = ((Rk.step (field o u p) ns a b h)^[N] x, u, p) :=
  (Rk.iterate_affine (field o u p) (hat o) (fun x => ((x, u, p) : Pt K nx nu np)) (LinearMap.inl K _ _)
    (fun y d => by ext <;> simp) (fun y => rfl) ns a b h N x).symm

/-- **C38 (solution).**  For every right-hand side, step count, tableau, choice of sensitivity options and
content of the work space, the returned state is the `N`-fold Runge-Kutta step of the model with the given
control and parameters. -/
theorem C38_state (c : Cfg K) (o : Ode K c.nx c.nu c.np) (x : Fin c.nx → K) (u : Fin c.nu → K)
    (p : Fin c.np → K) (Sin : Nat → K) (w0 : Fw K) (i : Fin c.nx) :
    xn c (forward c o p x u Sin w0) i
      = solution o c.ns (fun s j => c.A (j * c.ns + s)) c.b c.T c.numSteps x u p i := by
  have h := (stepLoop c o p u (fwInit c x u Sin w0) (fwInit_u c x u Sin w0) c.numSteps).2.1
  have hx := x_iterate c o p u c.numSteps (view (fwInit c x u Sin w0).T 0 c.nX)
  rw [fwInit_x, hat_iterate, ← h] at hx
  have := congrFun (congrArg Prod.fst hx) i
  exact this
end

variable {nx nu np : Nat}

/-- the derivative of the solution map and the tangent system -/
theorem solution_deriv (o : Ode ℝ nx nu np) (ho : o.Differentiated) (ns : Nat) (a : Nat → Nat → ℝ) (b : Nat → ℝ)
    (h : ℝ) (N : Nat) (z : Pt ℝ nx nu np) :
    ∃ L : Pt ℝ nx nu np →L[ℝ] (Fin nx → ℝ),
      HasFDerivAt (fun z : Pt ℝ nx nu np => (Rk.step (field o z.2.1 z.2.2) ns a b h)^[N] z.1) L z ∧
      ∀ d, ((Rk.step (tan o) ns a b h)^[N] (z, d)).2.1 = L d := by
  choose L hL hLd using ho
  let f' : Pt ℝ nx nu np → Pt ℝ nx nu np →L[ℝ] Pt ℝ nx nu np := fun z => (L z).prod 0
  have hf : ∀ y, HasFDerivAt (hat o) (f' y) y := fun y => (hL y).prodMk (hasFDerivAt_const (0, 0) y)
  have ht : Rk.tangent (hat o) f' = tan o := by
    funext q
    refine Prod.ext rfl (Prod.ext ?_ rfl)
    funext i
    exact hLd q.1 q.2 i
  obtain ⟨D, hD, hT⟩ := Rk.iterate_tangent (hat o) f' hf ns a b h N
  rw [ht] at hT
  refine ⟨(ContinuousLinearMap.fst ℝ _ _).comp (D z), ?_, fun d => ?_⟩
  · have e : (fun z : Pt ℝ nx nu np => (Rk.step (field o z.2.1 z.2.2) ns a b h)^[N] z.1)
        = fun z => ((Rk.step (hat o) ns a b h)^[N] z).1 := by
      funext z
      obtain ⟨x, u, p⟩ := z
      rw [hat_iterate]
    rw [e]
    exact (ContinuousLinearMap.fst ℝ (Fin nx → ℝ) ((Fin nu → ℝ) × (Fin np → ℝ))).hasFDerivAt.comp z (hD z)
  · rw [hT]; rfl

theorem rhsAdj_local (c : Cfg ℝ) (o : Ode ℝ c.nx c.nu c.np) (p : Fin c.np → ℝ) (nF : Nat) (hnF : c.nx ≤ nF) :
    Local (rhsAdj c o p nF) (nF + c.nx + c.nu) (c.nx + c.nu) := by
  intro R R' h i _
  have hx : (fun k : Fin c.nx => R k) = fun k : Fin c.nx => R' k := by
    funext k; exact h _ (by have := k.2; omega)
  have hu : (fun k : Fin c.nu => R (nF + c.nx + k)) = fun k : Fin c.nu => R' (nF + c.nx + k) := by
    funext k; exact h _ (by have := k.2; omega)
  unfold rhsAdj
  simp only [hx, hu]
  split
  · exact sum_congr rfl fun k hk => by rw [h _ (by have := mem_range.1 hk; omega)]
  · exact sum_congr rfl fun k hk => by rw [h _ (by have := mem_range.1 hk; omega)]

theorem rhsAdj_products (c : Cfg ℝ) (o : Ode ℝ c.nx c.nu c.np) (p : Fin c.np → ℝ) (nF : Nat) :
    AdjProducts c o p nF (rhsAdj c o p nF) := by
  intro R
  refine ⟨fun i hi => ?_, fun i _ => ?_⟩
  · unfold rhsAdj; simp only [if_pos hi]
  · unfold rhsAdj
    simp only
    rw [if_neg (by omega), show c.nx + i - c.nx = i by omega]

/-- **C38 (sensitivities).**  Let the generated Jacobians be the derivatives of the generated right-hand side.
Then there is one linear map `L`, the derivative of the solution map with respect to state, control and
parameters, such that
* column `j` of the returned state sensitivity is `L` applied to the seed column `j`,
* column `j` of the returned control sensitivity is `L` applied to the seed column `nx + j` together with the
  unit vector of control `j`,
* column `j` of the returned parameter sensitivity is `L` applied to the unit vector of parameter `j`,
* the adjoint sweep returns the product of the seed with `L`, for every seed. -/
theorem C38_sensitivities (c : Cfg ℝ) (o : Ode ℝ c.nx c.nu c.np) (ho : o.Differentiated) (x : Fin c.nx → ℝ)
    (u : Fin c.nu → ℝ) (p : Fin c.np → ℝ) (Sin : Nat → ℝ) (w0 : Fw ℝ) :
    ∃ L : ((Fin c.nx → ℝ) × (Fin c.nu → ℝ) × (Fin c.np → ℝ)) →L[ℝ] (Fin c.nx → ℝ),
      HasFDerivAt (fun z : (Fin c.nx → ℝ) × (Fin c.nu → ℝ) × (Fin c.np → ℝ) =>
        solution o c.ns (fun s j => c.A (j * c.ns + s)) c.b c.T c.numSteps z.1 z.2.1 z.2.2) L (x, u, p) ∧
      ((c.sensForw = true ∨ c.sensP = true) → ∀ j i : Fin c.nx,
        sForw c (forward c o p x u Sin w0) (j * c.nx + i) = L (fun r => Sin (j * c.nx + r), 0, 0) i) ∧
      ((c.sensForw = true ∨ c.sensP = true) → ∀ (j : Fin c.nu) (i : Fin c.nx),
        sForw c (forward c o p x u Sin w0) ((c.nx + j) * c.nx + i)
          = L (fun r => Sin ((c.nx + j) * c.nx + r), Pi.single j 1, 0) i) ∧
      (c.sensP = true → ∀ (j : Fin c.np) (i : Fin c.nx),
        sP c (forward c o p x u Sin w0) (j * c.nx + i) = L (0, 0, Pi.single j 1) i) ∧
      (c.traj = true → ∀ (seed : Nat → ℝ) (q0 : Aw ℝ),
        (∀ j : Fin c.nx, adjoint c o p u seed (forward c o p x u Sin w0) q0 j
          = ∑ i : Fin c.nx, seed i * L (Pi.single j 1, 0, 0) i) ∧
        ∀ j : Fin c.nu, adjoint c o p u seed (forward c o p x u Sin w0) q0 (c.nx + j)
          = ∑ i : Fin c.nx, seed i * L (0, Pi.single j 1, 0) i) := by
  obtain ⟨L, hL, hLt⟩ := solution_deriv o ho c.ns c.a c.b c.step c.numSteps (x, u, p)
  obtain ⟨_, hend, htraj⟩ := stepLoop c o p u (fwInit c x u Sin w0) (fwInit_u c x u Sin w0) c.numSteps
  have hfw : (List.range c.numSteps).foldl (fstep (rhsFwd c o p) c) (fwInit c x u Sin w0)
      = forward c o p x u Sin w0 := rfl
  rw [hfw] at hend htraj
  generalize hw : forward c o p x u Sin w0 = w at hend htraj
  -- a column of the final augmented state
  have hcol : ∀ (col : Nat) (hc : col < c.nf + c.nfp) (i : Fin c.nx),
      w.T (endOff c + (c.nx + col * c.nx + i)) = L (fun k => if col < c.nf then Sin (col * c.nx + k) else 0,
        (fun k => if c.nx + k = col then 1 else 0), (fun k => if c.nx + c.nu + k = col then 1 else 0)) i := by
    intro col hc i
    have h := col_iterate c o p u col hc c.numSteps (view (fwInit c x u Sin w0).T 0 c.nX)
    rw [fwInit_x, fwInit_col, hLt, ← hend] at h
    exact congrFun h i
  refine ⟨L, hL, fun hs j i => ?_, fun hs j i => ?_, fun hs j i => ?_, fun htj seed q0 => ?_⟩
  · have hnf : c.nf = c.nx + c.nu := by unfold Cfg.nf; rw [if_pos (by simpa using hs)]
    have hj := j.2
    have h := hcol j (by omega) i
    unfold sForw
    rw [show endOff c + c.nx + (j * c.nx + i) = endOff c + (c.nx + j * c.nx + i) by omega, h]
    refine congrArg (fun d => L d i) ?_
    refine Prod.ext ?_ (Prod.ext ?_ ?_)
    · funext k; simp only; rw [if_pos (by omega)]
    · funext k; simp only [Pi.zero_apply]; rw [if_neg (by omega)]
    · funext k; simp only [Pi.zero_apply]; rw [if_neg (by omega)]
  · have hnf : c.nf = c.nx + c.nu := by unfold Cfg.nf; rw [if_pos (by simpa using hs)]
    have hj := j.2
    have h := hcol (c.nx + j) (by omega) i
    unfold sForw
    rw [show endOff c + c.nx + ((c.nx + j) * c.nx + i) = endOff c + (c.nx + (c.nx + j) * c.nx + i) by omega, h]
    refine congrArg (fun d => L d i) ?_
    refine Prod.ext ?_ (Prod.ext ?_ ?_)
    · funext k; simp only; rw [if_pos (by omega)]
    · funext k
      simp only [Pi.single_apply]
      by_cases e : k = j
      · rw [if_pos e, if_pos (by rw [e])]
      · rw [if_neg e, if_neg]
        intro h; apply e; ext; omega
    · funext k; simp only [Pi.zero_apply]; rw [if_neg (by omega)]
  · have hnf : c.nf = c.nx + c.nu := by unfold Cfg.nf; rw [if_pos (by simp [hs])]
    have hnp : c.nfp = c.np := by unfold Cfg.nfp; rw [if_pos hs]
    have hj := j.2
    have h := hcol (c.nx + c.nu + j) (by omega) i
    unfold sP
    rw [show endOff c + (c.nx + c.nx * c.nf) + (j * c.nx + i)
        = endOff c + (c.nx + (c.nx + c.nu + j) * c.nx + i) by rw [hnf]; ring, h]
    refine congrArg (fun d => L d i) ?_
    refine Prod.ext ?_ (Prod.ext ?_ ?_)
    · funext k; simp only [Pi.zero_apply]; rw [if_neg (by omega)]
    · funext k; simp only [Pi.zero_apply]; rw [if_neg (by omega)]
    · funext k
      simp only [Pi.single_apply]
      by_cases e : k = j
      · rw [if_pos e, if_pos (by rw [e])]
      · rw [if_neg e, if_neg]
        intro h; apply e; ext; omega
  · obtain ⟨htr1, htr2⟩ := htraj htj
    -- the x-part of the stored trajectory
    have hT : ∀ t ≤ c.numSteps, ∀ k : Fin c.nx, w.T (t * c.nX + k)
        = ((Rk.step (hat o) c.ns c.a c.b c.step)^[t] (x, u, p)).1 k := by
      intro t ht k
      have hx := x_iterate c o p u t (view (fwInit c x u Sin w0).T 0 c.nX)
      rw [fwInit_x] at hx
      rw [← hx, ← htr1 t ht]
      rfl
    have hK : ∀ t < c.numSteps, ∀ j < c.ns, ∀ k : Fin c.nx, w.Kt (t * c.ns * c.nX + j * c.nX + k)
        = (Rk.stages (hat o) c.a c.step ((Rk.step (hat o) c.ns c.a c.b c.step)^[t] (x, u, p)) c.ns j).1 k := by
      intro t ht j hj k
      have hx := x_iterate c o p u t (view (fwInit c x u Sin w0).T 0 c.nX)
      rw [fwInit_x] at hx
      rw [← hx, ← x_stages c o p u _ _ _ hj, ← htr2 t ht j hj]
      rfl
    -- initial arrays
    let q : Aw ℝ := ⟨wr (wr (wr q0.tmp 0 c.nx seed) c.nx c.nu (fun _ => 0)) (c.nx + c.nu)
        (c.nx + c.nu - (c.nx + c.nu)) (fun _ => 0), q0.traj,
      wr q0.R (c.nx + c.nx) c.nu (fun i => if h : i < c.nu then u ⟨i, h⟩ else 0)⟩
    have hqx : ∀ r : Fin c.nx, q.tmp r = seed r := by
      intro r
      have := r.2
      simp only [q]
      rw [wr_out _ _ _ _ _ (Or.inl (by omega)), wr_out _ _ _ _ _ (Or.inl (by omega)), wr_in0 _ _ _ _ r.2]
    have hqu : ∀ r : Fin c.nu, q.tmp (c.nx + r) = 0 := by
      intro r
      have := r.2
      simp only [q]
      rw [wr_out _ _ _ _ _ (Or.inl (by omega)), wr_in _ _ _ _ _ r.2]
    have hqR : ∀ k : Fin c.nu, q.R (c.nx + c.nx + k) = u k := by
      intro k
      simp only [q]
      rw [wr_in _ _ _ _ _ k.2, dif_pos k.2]
    have hadj : adjoint c o p u seed w q0 = ((List.range c.numSteps).reverse.foldl
      (adjStep (rhsAdj c o p c.nx) c w c.nx (c.nx + c.nu)) q).tmp := rfl
    have hpair : ∀ d : Pt ℝ c.nx c.nu c.np, d.2.2 = 0 → ∑ i : Fin c.nx, seed i * L d i
        = ∑ r : Fin c.nx, adjoint c o p u seed w q0 r * d.1 r
          + ∑ k : Fin c.nu, adjoint c o p u seed w q0 (c.nx + k) * d.2.1 k := by
      intro d hd
      have h := adjLoop_pairing (rhsAdj c o p c.nx) c o p w c.nx (c.nx + c.nu) (le_refl _) (le_refl _)
        (rhsAdj_local c o p c.nx (le_refl _)) (rhsAdj_products c o p c.nx) u c.numSteps ((x, u, p), d) rfl hd
        hT hK q hqR
      simp only at h
      rw [hadj, ← h, hLt d]
      simp only [hqx, hqu, zero_mul, sum_const_zero, add_zero]
    refine ⟨fun j => ?_, fun j => ?_⟩
    · rw [hpair _ rfl]
      simp [Pi.single_apply]
    · rw [hpair _ rfl]
      simp [Pi.single_apply]

/-- with the identity as seed the returned matrices are the partial derivatives themselves -/
theorem C38_identity_seed (c : Cfg ℝ) (o : Ode ℝ c.nx c.nu c.np) (ho : o.Differentiated) (x : Fin c.nx → ℝ)
    (u : Fin c.nu → ℝ) (p : Fin c.np → ℝ) (w0 : Fw ℝ) (hs : c.sensForw = true) (Sin : Nat → ℝ)
    (hx : ∀ j r : Fin c.nx, Sin (j * c.nx + r) = if r = j then 1 else 0)
    (hu : ∀ (j : Fin c.nu) (r : Fin c.nx), Sin ((c.nx + j) * c.nx + r) = 0) :
    ∃ L : ((Fin c.nx → ℝ) × (Fin c.nu → ℝ) × (Fin c.np → ℝ)) →L[ℝ] (Fin c.nx → ℝ),
      HasFDerivAt (fun z : (Fin c.nx → ℝ) × (Fin c.nu → ℝ) × (Fin c.np → ℝ) =>
        solution o c.ns (fun s j => c.A (j * c.ns + s)) c.b c.T c.numSteps z.1 z.2.1 z.2.2) L (x, u, p) ∧
      (∀ j i : Fin c.nx, sForw c (forward c o p x u Sin w0) (j * c.nx + i) = L (Pi.single j 1, 0, 0) i) ∧
      ∀ (j : Fin c.nu) (i : Fin c.nx),
        sForw c (forward c o p x u Sin w0) ((c.nx + j) * c.nx + i) = L (0, Pi.single j 1, 0) i := by
  obtain ⟨L, hL, h1, h2, _, _⟩ := C38_sensitivities c o ho x u p Sin w0
  refine ⟨L, hL, fun j i => ?_, fun j i => ?_⟩
  · rw [h1 (Or.inl hs) j i]
    refine congrArg (fun d => L d i) ?_
    refine Prod.ext ?_ rfl
    funext r
    simp only
    rw [hx, Pi.single_apply]
  · rw [h2 (Or.inl hs) j i]
    refine congrArg (fun d => L d i) ?_
    refine Prod.ext ?_ rfl
    funext r
    simp only [hu]; rfl

/-! ### the hypotheses can be met: a nonlinear model `x' = x u + p` -/

/-- one state, one control, one parameter -/
noncomputable def exOde : Ode ℝ 1 1 1 where
  f x u p _ := x 0 * u 0 + p 0
  fx _ u _ _ _ := u 0
  fu x _ _ _ _ := x 0
  fp _ _ _ _ _ := 1

theorem exOde_differentiated : exOde.Differentiated := by
  intro z
  let px : Pt ℝ 1 1 1 →L[ℝ] ℝ := (ContinuousLinearMap.proj 0).comp (ContinuousLinearMap.fst ℝ _ _)
  let pu : Pt ℝ 1 1 1 →L[ℝ] ℝ :=
    (ContinuousLinearMap.proj 0).comp ((ContinuousLinearMap.fst ℝ _ _).comp (ContinuousLinearMap.snd ℝ _ _))
  let pp : Pt ℝ 1 1 1 →L[ℝ] ℝ :=
    (ContinuousLinearMap.proj 0).comp ((ContinuousLinearMap.snd ℝ _ _).comp (ContinuousLinearMap.snd ℝ _ _))
  have h : HasFDerivAt (fun z : Pt ℝ 1 1 1 => z.1 0 * z.2.1 0 + z.2.2 0) (px z • pu + pu z • px + pp) z :=
    (px.hasFDerivAt.mul pu.hasFDerivAt).add pp.hasFDerivAt
  refine ⟨ContinuousLinearMap.pi fun _ => px z • pu + pu z • px + pp, hasFDerivAt_pi.2 fun i => h, fun d i => ?_⟩
  simp [exOde, px, pu, pp]
  ring

/-- two steps of the explicit midpoint rule with all sensitivities -/
noncomputable def exCfg : Cfg ℝ where
  ns := 2
  nx := 1
  nu := 1
  np := 1
  numSteps := 2
  T := 1
  A k := if k = 1 then 1 / 2 else 0
  b k := if k = 1 then 1 else 0
  sensForw := true
  sensP := true
  traj := true

example (x u p : Fin 1 → ℝ) (Sin : Nat → ℝ) (w0 : Fw ℝ) :
    xn exCfg (forward exCfg exOde p x u Sin w0) 0
      = solution exOde 2 (fun s j => exCfg.A (j * 2 + s)) exCfg.b 1 2 x u p 0 :=
  C38_state exCfg exOde x u p Sin w0 (⟨0, Nat.one_pos⟩ : Fin 1)

example (x u p : Fin 1 → ℝ) (w0 : Fw ℝ) :
    ∃ L : ((Fin 1 → ℝ) × (Fin 1 → ℝ) × (Fin 1 → ℝ)) →L[ℝ] (Fin 1 → ℝ), HasFDerivAt (fun z : (Fin 1 → ℝ) × (Fin 1 → ℝ) × (Fin 1 → ℝ) =>
      solution exOde 2 (fun s j => exCfg.A (j * 2 + s)) exCfg.b 1 2 z.1 z.2.1 z.2.2) L (x, u, p) ∧
    (∀ j i : Fin 1, sForw exCfg (forward exCfg exOde p x u (fun k => if k = 0 then 1 else 0) w0) (j * 1 + i)
      = L (Pi.single j 1, 0, 0) i) ∧ ∀ (j i : Fin 1),
      sForw exCfg (forward exCfg exOde p x u (fun k => if k = 0 then 1 else 0) w0) ((1 + j) * 1 + i)
        = L (0, Pi.single j 1, 0) i :=
  C38_identity_seed exCfg exOde exOde_differentiated x u p w0 rfl _
    (by
      intro j r
      have hj : (j : Nat) < 1 := j.2
      have hr : (r : Nat) < 1 := r.2
      have e : r = j := Fin.ext (by omega)
      rw [if_pos e, if_pos]
      rw [show (j : Nat) = 0 by omega, show (r : Nat) = 0 by omega, Nat.zero_mul])
    (by intro j r; simp [exCfg])

end Acados.Erk
