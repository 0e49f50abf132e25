import Verif.Model.Irk
/-!
# Cost propagation of the implicit Runge-Kutta integrator

`opts->cost_computation` in `sim_irk` (`acados/sim/sim_irk_integrator.c`): with `cost_discretization =
INTEGRATOR` the stage cost is integrated together with the dynamics.  The C code exits for `nz > 0`
(lines 1406-1410); the model is for `nz = 0` and leaves the algebraic argument of the cost functions out.
Gradient and Hessian are ordered `[u, x]`.
-/
namespace Acados.Irk
open Matrix
open Acados.Gnsf (Lu)
variable {K : Type*} [Field K] [LinearOrder K]

/-- accumulated cost value, gradient, Hessian: `mem->cost_fun`, `cost_grad`, `cost_hess` -/
structure Acc (d : Dims) (K : Type*) where
  val : K
  grad : Fin (d.nu + d.nx) → K
  hess : Matrix (Fin (d.nu + d.nx)) (Fin (d.nu + d.nx)) K

/-- initialisation, lines 1402-1405 -/
def Acc.zero (d : Dims) : Acc d K := ⟨0, 0, 0⟩

/-- nonlinear least squares: `nls_y_fun`, `nls_y_fun_jac` (Jacobian transposed, rows `[u; x]`), `y_ref`, and
what the cost module stores about the weight -/
structure Nls (d : Dims) (ny : Nat) (K : Type*) where
  y : (Fin d.nx → K) → (Fin d.nu → K) → K → Fin ny → K
  jt : (Fin d.nx → K) → (Fin d.nu → K) → K → Matrix (Fin (d.nu + d.nx)) (Fin ny) K
  yref : Fin ny → K
  isDiag : Bool
  wdiag : Fin ny → K
  wchol : Matrix (Fin ny) (Fin ny) K

/-- convex-over-nonlinear: `conl_cost_fun_jac_hess` (value, outer gradient, inner Jacobian transposed, outer
Hessian, diagonality flag; the reference is part of the functions) -/
structure Conl (d : Dims) (ny : Nat) (K : Type*) where
  φ : (Fin d.nx → K) → (Fin d.nu → K) → K → K
  g : (Fin d.nx → K) → (Fin d.nu → K) → K → Fin ny → K
  jt : (Fin d.nx → K) → (Fin d.nu → K) → K → Matrix (Fin (d.nu + d.nx)) (Fin ny) K
  W : (Fin d.nx → K) → (Fin d.nu → K) → K → Matrix (Fin ny) (Fin ny) K
  isDiag : (Fin d.nx → K) → (Fin d.nu → K) → K → Bool

/-- lower triangle, the part of a matrix `dtrmm_rlnn`, `dtrmv_lnn` and `dtrmv_ltn` read -/
def low {n : Nat} (L : Matrix (Fin n) (Fin n) K) : Matrix (Fin n) (Fin n) K := fun i j =>
  if j.val ≤ i.val then L i j else 0

section
variable (d : Dims) {ny : Nat} (o : Opts K) (h t0 : K) (e : Ext d K) (u : Fin d.nu → K) (numSteps : Nat)

/-- `S_forw_stage`, lines 1728-1737 (1835-1844); `D` is `dK_dxu_ss`, `S` is `S_forw_ss`, `w` previous content -/
def sStage (D : Matrix (Fin (nK d)) (Fin (d.nx + d.nu)) K) (S w : Matrix (Fin d.nx) (Fin (d.nx + d.nu)) K)
    (ii : Nat) : Matrix (Fin d.nx) (Fin (d.nx + d.nu)) K :=
  loop d.s (fun jj M => gead d.nx (d.nx + d.nu) (-(o.A_mat (ii + d.s * jj) * h)) D (jj * d.nx) 0 M 0 0)
    (gecpsc d.nx (d.nx + d.nu) 1 S 0 0 w 0 0)

/-- `J_y_tilde`, lines 1745-1755 (1883-1890): `dgetr`, `dgemm_tn` into the first `nu` columns, `dgemm_tn` into
the last `nx` columns; `w` previous content -/
def jTilde (Jt : Matrix (Fin (d.nu + d.nx)) (Fin ny) K) (Sst : Matrix (Fin d.nx) (Fin (d.nx + d.nu)) K)
    (w : Matrix (Fin ny) (Fin (d.nu + d.nx)) K) : Matrix (Fin ny) (Fin (d.nu + d.nx)) K :=
  let J : Matrix (Fin ny) (Fin (d.nu + d.nx)) K := fun r c => if c.val < d.nu then rd2 Jt c.val r.val else w r c
  let J : Matrix (Fin ny) (Fin (d.nu + d.nx)) K := fun r c => if c.val < d.nu then
      (∑ l ∈ Finset.range d.nx, rd2 Jt (d.nu + l) r.val * rd2 Sst l (d.nx + c.val)) + J r c else J r c
  fun r c => if d.nu ≤ c.val ∧ c.val < d.nu + d.nx then
    ∑ l ∈ Finset.range d.nx, rd2 Jt (d.nu + l) r.val * rd2 Sst l (c.val - d.nu) else J r c

/-- contribution of stage `ii`, nonlinear least squares, lines 1739-1791 -/
def nlsStage (c : Nls d ny K) (scale : K) (x : Fin d.nx → K) (t : K) (Sst : Matrix (Fin d.nx) (Fin (d.nx + d.nu)) K)
    (w : Matrix (Fin ny) (Fin (d.nu + d.nx)) K) (b : K) (a : Acc d K) : Acc d K :=
  let r : Fin ny → K := c.y x u t + (-1 : K) • c.yref
  let J := (jTilde d (c.jt x u t) Sst w)ᵀ
  let J2 := if c.isDiag then J * Matrix.diagonal c.wdiag else J * low c.wchol
  let y := if c.isDiag then (fun i => c.wdiag i * r i) else low c.wchol *ᵥ r
  ⟨a.val + 1 / 2 * b / (numSteps : K) * (y ⬝ᵥ y), a.grad + (scale * b / (numSteps : K)) • (J2 *ᵥ y),
    a.hess + (b / (numSteps : K)) • (J2 * J2ᵀ)⟩

/-- contribution of stage `ii`, convex-over-nonlinear, lines 1846-1917; `chol` is `dpotrf_l`, `sq` is `sqrt`;
`dsyrk_ln` updates the lower triangle only -/
def conlStage (c : Conl d ny K) (chol : Matrix (Fin ny) (Fin ny) K → Matrix (Fin ny) (Fin ny) K) (sq : K → K)
    (scale : K) (x : Fin d.nx → K) (t : K) (Sst : Matrix (Fin d.nx) (Fin (d.nx + d.nu)) K)
    (w : Matrix (Fin ny) (Fin (d.nu + d.nx)) K) (b : K) (a : Acc d K) : Acc d K :=
  let J := jTilde d (c.jt x u t) Sst w
  let J2 := if c.isDiag x u t then Jᵀ * Matrix.diagonal (fun i => sq (c.W x u t i i))
    else Jᵀ * low (chol (c.W x u t))
  ⟨a.val + b / (numSteps : K) * c.φ x u t,
    a.grad + (scale * b / (numSteps : K)) • (Jᵀ *ᵥ c.g x u t),
    fun i j => if j.val ≤ i.val then (a.hess + (b / (numSteps : K)) • (J2 * J2ᵀ)) i j else a.hess i j⟩

/-- the loop over the stages of one step; `stage` is `nlsStage` or `conlStage` -/
def costStep (stage : (Fin d.nx → K) → K → Matrix (Fin d.nx) (Fin (d.nx + d.nu)) K → K → Acc d K → Acc d K)
    (ss : Nat) (s : StepOut d K) (D : Matrix (Fin (nK d)) (Fin (d.nx + d.nu)) K)
    (S w : Matrix (Fin d.nx) (Fin (d.nx + d.nu)) K) (a : Acc d K) : Acc d K :=
  loop d.s (fun ii a => stage (xt d o h s.x0 s.k ii) (tcur o h t0 ss ii) (sStage d o h D S w ii) (o.b_vec ii) a) a

/-- all steps, with the forward sensitivities propagated alongside; without the final scaling -/
def costLoop (g : Matrix (Fin (nK d)) (Fin (nK d)) K → Lu (Fin (nK d)) K)
    (stage : (Fin d.nx → K) → K → Matrix (Fin d.nx) (Fin (d.nx + d.nu)) K → K → Acc d K → Acc d K)
    (w : Matrix (Fin (nK d)) (Fin (d.nx + d.nu)) K) (w2 : Matrix (Fin d.nx) (Fin (d.nx + d.nu)) K) (ident : Bool) :
    Nat → List (StepOut d K) → Matrix (Fin d.nx) (Fin (d.nx + d.nu)) K → Acc d K → Acc d K
  | _, [], _, a => a
  | ss, s :: l, S, a =>
    let D := dKdxu d o h t0 e u g ss (ident && ss == 0) s.x0 s.k w S
    costLoop g stage w w2 ident (ss + 1) l (forwNext d o h D S) (costStep d o h t0 stage ss s D S w2 a)

/-- the value is scaled at the end, lines 2055-2059 -/
def scaled (scale : K) (a : Acc d K) : Acc d K := { a with val := a.val * scale }

/-- the value without sensitivities (nonlinear least squares, lines 1932-1985) -/
def nlsVal (c : Nls d ny K) (scale : K) : Nat → List (StepOut d K) → K → K
  | _, [], a => a * scale
  | ss, s :: l, a =>
    nlsVal c scale (ss + 1) l (loop d.s (fun ii a =>
      let r : Fin ny → K := c.y (xt d o h s.x0 s.k ii) u (tcur o h t0 ss ii) + (-1 : K) • c.yref
      let y := if c.isDiag then (fun i => c.wdiag i * r i) else low c.wchol *ᵥ r
      a + 1 / 2 * o.b_vec ii / (numSteps : K) * (y ⬝ᵥ y)) a)

/-- the value without sensitivities (convex-over-nonlinear, lines 1986-2032) -/
def conlVal (c : Conl d ny K) (scale : K) : Nat → List (StepOut d K) → K → K
  | _, [], a => a * scale
  | ss, s :: l, a =>
    conlVal c scale (ss + 1) l (loop d.s (fun ii a =>
      a + o.b_vec ii / (numSteps : K) * c.φ (xt d o h s.x0 s.k ii) u (tcur o h t0 ss ii)) a)

end
end Acados.Irk
