import Verif.Model.Gnsf
/-!
# Implicit Runge-Kutta integrator (`acados/sim/sim_irk_integrator.c`)

`double` is an arbitrary ordered field.  The stage vector `K = (k_1, …, k_ns, z_1, …, z_ns)` and the
residual `rG` are arrays of length `nK = (nx + nz) * ns`, addressed by the same offsets as in C.  BLASFEO's
`dgetrf_rp` is a parameter returning an `Lu` (see `Verif/Model/Gnsf.lean`); `IsLu` is the exactness
assumption of the theorems.  The generated model functions are the fields of `Ext`.  Cost propagation is
not part of this file.
-/
namespace Acados.Irk
open Matrix
open Acados.Gnsf (Lu solveV solveM solveT)

/-- dimensions and `opts->ns`, sim_irk_integrator.c:1205-1213 -/
structure Dims where
  s : Nat
  nx : Nat
  nu : Nat
  nz : Nat
  np : Nat

/-- sim_irk_integrator.c:1214 -/
abbrev nK (d : Dims) : Nat := (d.nx + d.nz) * d.s

/-- options; `A_mat` column-major -/
structure Opts (K : Type*) where
  A_mat : Nat → K
  b_vec : Nat → K
  c_vec : Nat → K
  newton_iter : Nat
  newton_tol : K
  jac_reuse : Bool

/-- generated functions: `impl_ode_fun` (`f(x, xdot, u, z, t)`), its Jacobians with respect to `x`, `xdot`,
`u`, `z` (`impl_ode_jac_x_xdot_u_z`), with respect to `p` (`impl_dae_jac_p`), and the Hessian of
`multiplier' f` with respect to `(x, xdot, z, u)` (`impl_ode_hess`) -/
structure Ext (d : Dims) (K : Type*) where
  f : (Fin d.nx → K) → (Fin d.nx → K) → (Fin d.nu → K) → (Fin d.nz → K) → K → Fin (d.nx + d.nz) → K
  fx : (Fin d.nx → K) → (Fin d.nx → K) → (Fin d.nu → K) → (Fin d.nz → K) → K →
    Matrix (Fin (d.nx + d.nz)) (Fin d.nx) K
  fk : (Fin d.nx → K) → (Fin d.nx → K) → (Fin d.nu → K) → (Fin d.nz → K) → K →
    Matrix (Fin (d.nx + d.nz)) (Fin d.nx) K
  fu : (Fin d.nx → K) → (Fin d.nx → K) → (Fin d.nu → K) → (Fin d.nz → K) → K →
    Matrix (Fin (d.nx + d.nz)) (Fin d.nu) K
  fz : (Fin d.nx → K) → (Fin d.nx → K) → (Fin d.nu → K) → (Fin d.nz → K) → K →
    Matrix (Fin (d.nx + d.nz)) (Fin d.nz) K
  fp : (Fin d.nx → K) → (Fin d.nx → K) → (Fin d.nu → K) → (Fin d.nz → K) → K →
    Matrix (Fin (d.nx + d.nz)) (Fin d.np) K
  hess : (Fin d.nx → K) → (Fin d.nx → K) → (Fin d.nu → K) → (Fin d.nz → K) → (Fin (d.nx + d.nz) → K) → K →
    Matrix (Fin (2 * d.nx + d.nz + d.nu)) (Fin (2 * d.nx + d.nz + d.nu)) K

variable {K : Type*} [Field K] [LinearOrder K]

/-! ### BLASFEO kernels with offsets -/

/-- reading an array; the model never reads outside -/
def rd {n : Nat} (v : Fin n → K) (i : Nat) : K := if h : i < n then v ⟨i, h⟩ else 0
/-- reading a matrix -/
def rd2 {m n : Nat} (A : Matrix (Fin m) (Fin n) K) (i j : Nat) : K :=
  if h : i < m ∧ j < n then A ⟨i, h.1⟩ ⟨j, h.2⟩ else 0
/-- `for (i = 0; i < n; i++)` -/
def loop {α : Type*} (n : Nat) (f : Nat → α → α) (a : α) : α := (List.range n).foldl (fun a i => f i a) a

/-- `blasfeo_daxpy(n, α, x, xi, y, yi, y, yi)` -/
def daxpy {p q : Nat} (n : Nat) (α : K) (x : Fin p → K) (xi : Nat) (y : Fin q → K) (yi : Nat) : Fin q → K :=
  fun i => if yi ≤ i.val ∧ i.val < yi + n then y i + α * rd x (xi + (i.val - yi)) else y i
/-- `blasfeo_dveccp(n, x, xi, y, yi)` (also `blasfeo_pack_dvec`) -/
def dveccp {p q : Nat} (n : Nat) (x : Fin p → K) (xi : Nat) (y : Fin q → K) (yi : Nat) : Fin q → K :=
  fun i => if yi ≤ i.val ∧ i.val < yi + n then rd x (xi + (i.val - yi)) else y i
/-- `blasfeo_dveccpsc(n, α, x, xi, y, yi)` -/
def dveccpsc {p q : Nat} (n : Nat) (α : K) (x : Fin p → K) (xi : Nat) (y : Fin q → K) (yi : Nat) :
    Fin q → K :=
  fun i => if yi ≤ i.val ∧ i.val < yi + n then α * rd x (xi + (i.val - yi)) else y i
/-- `blasfeo_dgead(m, n, α, A, ai, aj, B, bi, bj)` -/
def gead {p q p' q' : Nat} (m n : Nat) (α : K) (A : Matrix (Fin p) (Fin q) K) (ai aj : Nat)
    (B : Matrix (Fin p') (Fin q') K) (bi bj : Nat) : Matrix (Fin p') (Fin q') K := fun r c =>
  if (bi ≤ r.val ∧ r.val < bi + m) ∧ (bj ≤ c.val ∧ c.val < bj + n)
  then B r c + α * rd2 A (ai + (r.val - bi)) (aj + (c.val - bj)) else B r c
/-- `blasfeo_dgecpsc(m, n, α, A, ai, aj, B, bi, bj)`; `dgecp` is the case `α = 1` -/
def gecpsc {p q p' q' : Nat} (m n : Nat) (α : K) (A : Matrix (Fin p) (Fin q) K) (ai aj : Nat)
    (B : Matrix (Fin p') (Fin q') K) (bi bj : Nat) : Matrix (Fin p') (Fin q') K := fun r c =>
  if (bi ≤ r.val ∧ r.val < bi + m) ∧ (bj ≤ c.val ∧ c.val < bj + n)
  then α * rd2 A (ai + (r.val - bi)) (aj + (c.val - bj)) else B r c

section Step
variable (d : Dims) (o : Opts K) (h t0 : K) (e : Ext d K) (u : Fin d.nu → K)

/-- stage value `xt`, sim_irk_integrator.c:1488-1497 (also 1592-1599, 1667-1672, 2114-2119, 2187-2191) -/
def xt (xn : Fin d.nx → K) (k : Fin (nK d) → K) (ii : Nat) : Fin d.nx → K :=
  loop d.s (fun jj x => daxpy d.nx (o.A_mat (ii + d.s * jj) * h) k (jj * d.nx) x 0) xn
/-- `impl_ode_xdot_in` with `xi = ii * nx`, line 1498 -/
def kin (k : Fin (nK d) → K) (ii : Nat) : Fin d.nx → K := fun c => rd k (ii * d.nx + c.val)
/-- `impl_ode_z_in` with `xi = ns * nx + ii * nz`, line 1499 -/
def zin (k : Fin (nK d) → K) (ii : Nat) : Fin d.nz → K := fun c => rd k (d.s * d.nx + ii * d.nz + c.val)
/-- `t_current`, line 1489 -/
def tcur (ss ii : Nat) : K := t0 + (ss : K) * h + o.c_vec ii * h

/-- `rG` after the loop over the stages, lines 1485-1536; `w` is its previous content -/
def rG (ss : Nat) (xn : Fin d.nx → K) (k w : Fin (nK d) → K) : Fin (nK d) → K :=
  loop d.s (fun ii r => dveccp (d.nx + d.nz)
    (e.f (xt d o h xn k ii) (kin d k ii) u (zin d k ii) (tcur o h t0 ss ii)) 0 r (ii * (d.nx + d.nz))) w

/-- `dG_dK`, lines 1482 and 1514-1526 (also 1584-1625 and 2102-2145) -/
def dGdK (ss : Nat) (xn : Fin d.nx → K) (k : Fin (nK d) → K) : Matrix (Fin (nK d)) (Fin (nK d)) K :=
  loop d.s (fun ii M =>
    let fx := e.fx (xt d o h xn k ii) (kin d k ii) u (zin d k ii) (tcur o h t0 ss ii)
    let fk := e.fk (xt d o h xn k ii) (kin d k ii) u (zin d k ii) (tcur o h t0 ss ii)
    let fz := e.fz (xt d o h xn k ii) (kin d k ii) u (zin d k ii) (tcur o h t0 ss ii)
    loop d.s (fun jj M =>
      let M := gead (d.nx + d.nz) d.nx (o.A_mat (ii + d.s * jj) * h) fx 0 0 M (ii * (d.nx + d.nz)) (jj * d.nx)
      if jj = ii then
        gead (d.nx + d.nz) d.nz 1 fz 0 0
          (gead (d.nx + d.nz) d.nx 1 fk 0 0 M (ii * (d.nx + d.nz)) (jj * d.nx))
          (ii * (d.nx + d.nz)) (d.nx * d.s + jj * d.nz)
      else M) M) 0

/-- the Newton loop of one step, lines 1477-1574.  `fresh` is `ss == 0 && iter == 0`; `lu` is the
factorisation held in memory; `g` is `dgetrf_rp`; `w` the content of `rG` (overwritten completely). -/
def newton (g : Matrix (Fin (nK d)) (Fin (nK d)) K → Lu (Fin (nK d)) K) (ss : Nat) (xn : Fin d.nx → K) :
    Nat → Bool → Lu (Fin (nK d)) K → (Fin (nK d) → K) → (Fin (nK d) → K) →
      (Fin (nK d) → K) × Lu (Fin (nK d)) K
  | 0, _, lu, k, _ => (k, lu)
  | n + 1, fresh, lu, k, w =>
    let lu := if (o.jac_reuse && fresh) || !o.jac_reuse then g (dGdK d o h t0 e u ss xn k) else lu
    let δ := solveV lu (rG d o h t0 e u ss xn k w)
    let k := k - δ
    if 0 < o.newton_tol ∧ ∀ a, |δ a| < o.newton_tol then (k, lu)
    else newton g ss xn n false lu k δ

/-- next state, lines 2035-2038 -/
def nextX (xn : Fin d.nx → K) (k : Fin (nK d) → K) : Fin d.nx → K :=
  loop d.s (fun ii x => daxpy d.nx (h * o.b_vec ii) k (ii * d.nx) x 0) xn

/-- what is kept of a step: `xn_traj[ss]`, `K_traj[ss]`, the factorisation left by the Newton loop -/
structure StepOut (d : Dims) (K : Type*) where
  x0 : Fin d.nx → K
  k : Fin (nK d) → K
  lu : Lu (Fin (nK d)) K
  x : Fin d.nx → K

/-- one step of the forward sweep -/
def step (g : Matrix (Fin (nK d)) (Fin (nK d)) K → Lu (Fin (nK d)) K) (ss : Nat) (lu : Lu (Fin (nK d)) K)
    (k w : Fin (nK d) → K) (xn : Fin d.nx → K) : StepOut d K :=
  let r := newton d o h t0 e u g ss xn o.newton_iter (ss == 0) lu k w
  ⟨xn, r.1, r.2, nextX d o h xn r.1⟩

/-- the steps `ss, ss + 1, …` of the forward sweep; `sens` is `sens_forw || sens_hess || sens_forw_p`, in
which case the factorisation at the end point of the step stays in memory (lines 1584-1629; with
`sens_hess` it is copied to the next step, lines 1458-1463) -/
def simulate (g : Matrix (Fin (nK d)) (Fin (nK d)) K → Lu (Fin (nK d)) K) (sens : Bool) :
    Nat → Nat → Lu (Fin (nK d)) K → (Fin (nK d) → K) → (Fin (nK d) → K) → (Fin d.nx → K) →
      List (StepOut d K)
  | 0, _, _, _, _, _ => []
  | n + 1, ss, lu, k, w, xn =>
    let r := step d o h t0 e u g ss lu k w xn
    r :: simulate g sens n (ss + 1) (if sens then g (dGdK d o h t0 e u ss xn r.k) else r.lu) r.k w r.x

/-- initial stage vector, lines 1420-1426: every stage starts from `mem->xdot`, `mem->z` -/
def initK (xdot : Fin d.nx → K) (z : Fin d.nz → K) (w : Fin (nK d) → K) : Fin (nK d) → K :=
  loop d.s (fun i k => dveccp d.nz z 0 (dveccp d.nx xdot 0 k (d.nx * i)) (d.nx * d.s + i * d.nz)) w

/-! ### forward sensitivities -/

/-- `dG_dxu`, lines 1608-1609 (also 2128-2129); `w` previous content -/
def dGdxu (ss : Nat) (xn : Fin d.nx → K) (k : Fin (nK d) → K) (w : Matrix (Fin (nK d)) (Fin (d.nx + d.nu)) K) :
    Matrix (Fin (nK d)) (Fin (d.nx + d.nu)) K :=
  loop d.s (fun ii M =>
    gecpsc (d.nx + d.nz) d.nu 1
      (e.fu (xt d o h xn k ii) (kin d k ii) u (zin d k ii) (tcur o h t0 ss ii)) 0 0
      (gecpsc (d.nx + d.nz) d.nx 1
        (e.fx (xt d o h xn k ii) (kin d k ii) u (zin d k ii) (tcur o h t0 ss ii)) 0 0 M
        (ii * (d.nx + d.nz)) 0)
      (ii * (d.nx + d.nz)) d.nx) w

/-- `blasfeo_dgemm_nn(m, n, k, 1.0, A, 0, 0, B, 0, 0, 0.0, …)` -/
def gemm {p q r t : Nat} (kk : Nat) (A : Matrix (Fin p) (Fin q) K) (B : Matrix (Fin r) (Fin t) K) :
    Matrix (Fin p) (Fin t) K := fun i j => ∑ l ∈ Finset.range kk, rd2 A i.val l * rd2 B l j.val

/-- `dK_dxu` (with the sign of the C code: the negative derivative), lines 1636-1652 -/
def dKdxu (g : Matrix (Fin (nK d)) (Fin (nK d)) K → Lu (Fin (nK d)) K) (ss : Nat) (ident : Bool)
    (xn : Fin d.nx → K) (k : Fin (nK d) → K) (w : Matrix (Fin (nK d)) (Fin (d.nx + d.nu)) K)
    (S : Matrix (Fin d.nx) (Fin (d.nx + d.nu)) K) : Matrix (Fin (nK d)) (Fin (d.nx + d.nu)) K :=
  let G := dGdxu d o h t0 e u ss xn k w
  solveM (g (dGdK d o h t0 e u ss xn k))
    (if ident then G else gead (nK d) d.nu 1 G 0 d.nx (gemm d.nx G S) 0 d.nx)

/-- update of `S_forw`, lines 1926-1928 -/
def forwNext (D : Matrix (Fin (nK d)) (Fin (d.nx + d.nu)) K) (S : Matrix (Fin d.nx) (Fin (d.nx + d.nu)) K) :
    Matrix (Fin d.nx) (Fin (d.nx + d.nu)) K :=
  loop d.s (fun jj S => gead d.nx (d.nx + d.nu) (-h * o.b_vec jj) D (jj * d.nx) 0 S 0 0) S

/-- forward sensitivities along the steps taken: `S_forw` at the beginning of every step, and at the end.
`ident` is `in->identity_seed`. -/
def forwLoop (g : Matrix (Fin (nK d)) (Fin (nK d)) K → Lu (Fin (nK d)) K)
    (w : Matrix (Fin (nK d)) (Fin (d.nx + d.nu)) K) (ident : Bool) :
    Nat → List (StepOut d K) → Matrix (Fin d.nx) (Fin (d.nx + d.nu)) K →
      Matrix (Fin d.nx) (Fin (d.nx + d.nu)) K
  | _, [], S => S
  | ss, s :: l, S =>
    forwLoop g w ident (ss + 1) l
      (forwNext d o h (dKdxu d o h t0 e u g ss (ident && ss == 0) s.x0 s.k w S) S)

/-! ### parameter sensitivities -/

/-- `dK_dp` and the update of `S_p`, lines 1661-1692 -/
def spNext (g : Matrix (Fin (nK d)) (Fin (nK d)) K → Lu (Fin (nK d)) K) (ss : Nat) (xn : Fin d.nx → K)
    (k : Fin (nK d) → K) (w : Matrix (Fin (nK d)) (Fin (d.nx + d.nu)) K)
    (S : Matrix (Fin d.nx) (Fin d.np) K) : Matrix (Fin d.nx) (Fin d.np) K :=
  let D := solveM (g (dGdK d o h t0 e u ss xn k))
    (loop d.s (fun ii M => gead (d.nx + d.nz) d.np 1
      (e.fp (xt d o h xn k ii) (kin d k ii) u (zin d k ii) (tcur o h t0 ss ii)) 0 0 M (ii * (d.nx + d.nz)) 0)
      (gemm d.nx (dGdxu d o h t0 e u ss xn k w) S))
  loop d.s (fun jj S => gead d.nx d.np (-h * o.b_vec jj) D (jj * d.nx) 0 S 0 0) S

/-- `S_p` along the steps; it starts from zero, line 1302 -/
def spLoop (g : Matrix (Fin (nK d)) (Fin (nK d)) K → Lu (Fin (nK d)) K)
    (w : Matrix (Fin (nK d)) (Fin (d.nx + d.nu)) K) :
    Nat → List (StepOut d K) → Matrix (Fin d.nx) (Fin d.np) K → Matrix (Fin d.nx) (Fin d.np) K
  | _, [], S => S
  | ss, s :: l, S => spLoop g w (ss + 1) l (spNext d o h t0 e u g ss s.x0 s.k w S)

/-! ### adjoint sensitivities and Hessian -/

/-- `lambdaK`, lines 2156-2167 (factorisation 2102-2149, or the one of the forward sweep) -/
def lamK (g : Matrix (Fin (nK d)) (Fin (nK d)) K → Lu (Fin (nK d)) K) (ss : Nat) (s : StepOut d K)
    (l : Fin (d.nx + d.nu) → K) : Fin (nK d) → K :=
  solveT (g (dGdK d o h t0 e u ss s.x0 s.k))
    (loop d.s (fun jj v => dveccpsc d.nx (-h * o.b_vec jj) l 0 v (jj * d.nx)) 0)

/-- `lambda` after one pass, lines 2172-2173 -/
def adjStep (g : Matrix (Fin (nK d)) (Fin (nK d)) K → Lu (Fin (nK d)) K)
    (w : Matrix (Fin (nK d)) (Fin (d.nx + d.nu)) K) (ss : Nat) (s : StepOut d K)
    (l : Fin (d.nx + d.nu) → K) : Fin (d.nx + d.nu) → K :=
  l + (dGdxu d o h t0 e u ss s.x0 s.k w)ᵀ *ᵥ lamK d o h t0 e u g ss s l

/-- backward sweep, lines 2076-2173 -/
def adjLoop (g : Matrix (Fin (nK d)) (Fin (nK d)) K → Lu (Fin (nK d)) K)
    (w : Matrix (Fin (nK d)) (Fin (d.nx + d.nu)) K) :
    Nat → List (StepOut d K) → (Fin (d.nx + d.nu) → K) → Fin (d.nx + d.nu) → K
  | _, [], l => l
  | ss, s :: rest, l => adjStep d o h t0 e u g w ss s (adjLoop g w (ss + 1) rest l)

/-- `dxkzu_dw0` at stage `ii`, lines 2183-2202; `w` previous content -/
def dxkzu (D : Matrix (Fin (nK d)) (Fin (d.nx + d.nu)) K) (S : Matrix (Fin d.nx) (Fin (d.nx + d.nu)) K) (ii : Nat)
    (w : Matrix (Fin (2 * d.nx + d.nz + d.nu)) (Fin (d.nx + d.nu)) K) :
    Matrix (Fin (2 * d.nx + d.nz + d.nu)) (Fin (d.nx + d.nu)) K :=
  let M := gecpsc d.nx (d.nx + d.nu) 1 S 0 0 w 0 0
  let M := loop d.s (fun jj M =>
    gead d.nx (d.nx + d.nu) (-(o.A_mat (ii + d.s * jj) * h)) D (jj * d.nx) 0 M 0 0) M
  let M := gecpsc d.nx (d.nx + d.nu) (-1) D (ii * d.nx) 0 M d.nx 0
  let M := gecpsc d.nz (d.nx + d.nu) (-1) D (d.s * d.nx + ii * d.nz) 0 M (2 * d.nx) 0
  let M : Matrix (Fin (2 * d.nx + d.nz + d.nu)) (Fin (d.nx + d.nu)) K :=
    fun r c => if 2 * d.nx + d.nz ≤ r.val then 0 else M r c
  fun r c => if 2 * d.nx + d.nz ≤ r.val ∧ c.val = d.nx + (r.val - (2 * d.nx + d.nz)) then 1 else M r c

/-- contribution of stage `ii` to `Hess`, lines 2234-2237: `dgemm_nn`, `dgead`, `dsyrk_ut` (upper triangle
only), `dgead` -/
def hessStage (F : Matrix (Fin (2 * d.nx + d.nz + d.nu)) (Fin (2 * d.nx + d.nz + d.nu)) K)
    (D : Matrix (Fin (2 * d.nx + d.nz + d.nu)) (Fin (d.nx + d.nu)) K)
    (H : Matrix (Fin (d.nx + d.nu)) (Fin (d.nx + d.nu)) K) : Matrix (Fin (d.nx + d.nu)) (Fin (d.nx + d.nu)) K :=
  let T := gead (2 * d.nx + d.nz + d.nu) d.nu 1 F 0 (2 * d.nx + d.nz) (gemm (2 * d.nx + d.nz) F D) 0 d.nx
  let H' : Matrix (Fin (d.nx + d.nu)) (Fin (d.nx + d.nu)) K := fun i j =>
    if i.val ≤ j.val then H i j + ∑ l ∈ Finset.range (2 * d.nx + d.nz), rd2 D l i.val * rd2 T l j.val else H i j
  gead d.nu (d.nx + d.nu) 1 T (2 * d.nx + d.nz) 0 H' d.nx 0

/-- block `ii` of `lambdaK`, `impl_ode_hess_lambda_in.xi = ii * (nx + nz)`, line 2218 -/
def lamin (v : Fin (nK d) → K) (ii : Nat) : Fin (d.nx + d.nz) → K := fun r => rd v (ii * (d.nx + d.nz) + r.val)

/-- `Hess` after the pass for one step, lines 2175-2243; `S` is `S_forw[ss]` and `D` is `dK_dxu[ss]` -/
def hessStep (g : Matrix (Fin (nK d)) (Fin (nK d)) K → Lu (Fin (nK d)) K) (ss : Nat) (s : StepOut d K)
    (l : Fin (d.nx + d.nu) → K) (D : Matrix (Fin (nK d)) (Fin (d.nx + d.nu)) K)
    (S : Matrix (Fin d.nx) (Fin (d.nx + d.nu)) K)
    (w : Matrix (Fin (2 * d.nx + d.nz + d.nu)) (Fin (d.nx + d.nu)) K)
    (H : Matrix (Fin (d.nx + d.nu)) (Fin (d.nx + d.nu)) K) : Matrix (Fin (d.nx + d.nu)) (Fin (d.nx + d.nu)) K :=
  loop d.s (fun ii H => hessStage d
    (e.hess (xt d o h s.x0 s.k ii) (kin d s.k ii) u (zin d s.k ii) (lamin d (lamK d o h t0 e u g ss s l) ii)
      (tcur o h t0 ss ii))
    (dxkzu d o h D S ii w) H) H

/-- backward sweep with Hessian: `(lambda, Hess)`.  `S` is the forward sensitivity at the beginning of
the first step of the list. -/
def hessLoop (g : Matrix (Fin (nK d)) (Fin (nK d)) K → Lu (Fin (nK d)) K)
    (w : Matrix (Fin (nK d)) (Fin (d.nx + d.nu)) K)
    (w2 : Matrix (Fin (2 * d.nx + d.nz + d.nu)) (Fin (d.nx + d.nu)) K) (ident : Bool) :
    Nat → List (StepOut d K) → Matrix (Fin d.nx) (Fin (d.nx + d.nu)) K → (Fin (d.nx + d.nu) → K) →
      Matrix (Fin (d.nx + d.nu)) (Fin (d.nx + d.nu)) K →
      (Fin (d.nx + d.nu) → K) × Matrix (Fin (d.nx + d.nu)) (Fin (d.nx + d.nu)) K
  | _, [], _, l, H => (l, H)
  | ss, s :: rest, S, l, H =>
    let D := dKdxu d o h t0 e u g ss (ident && ss == 0) s.x0 s.k w S
    let r := hessLoop g w w2 ident (ss + 1) rest (forwNext d o h D S) l H
    (adjStep d o h t0 e u g w ss s r.1, hessStep d o h t0 e u g ss s r.1 D S w2 r.2)

/-- `blasfeo_dtrtr_u` at the end, line 2253: the strict lower triangle is the transposed upper one -/
def trtrU {n : Nat} (H : Matrix (Fin n) (Fin n) K) : Matrix (Fin n) (Fin n) K := fun i j =>
  if i.val ≤ j.val then H i j else H j i

end Step
end Acados.Irk
