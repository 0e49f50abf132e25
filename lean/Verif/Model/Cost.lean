import Mathlib.Algebra.BigOperators.Intervals
import Mathlib.Algebra.Field.Defs
/-!
# Cost modules (`acados/ocp_nlp/ocp_nlp_cost_{ls,nls,conl,external}.c`)

Matrices are functions of row and column; `double` is an arbitrary field.  BLASFEO routines are written out by
their documented meaning: `dtrmm_rlnn` multiplies from the right with a lower triangular matrix, `dsyrk_ln`
writes the lower triangle, `dsymv_l` reads the lower triangle.  The Cholesky factorisation `dpotrf_l` and `sqrt`
are parameters.  Stage variables are stored as `ux = (u, x, slacks)`.
-/
namespace Acados.Cost
open Finset
variable {K : Type*} [Field K] [DecidableEq K]

/-- dimensions -/
structure Dims where
  nx : Nat
  nu : Nat
  nz : Nat
  ny : Nat
  ns : Nat

/-- `nu + nx` -/
def Dims.nv (d : Dims) : Nat := d.nu + d.nx

/-- external factorisation routines -/
structure Ext (K : Type*) where
  potrf : (Nat → Nat → K) → Nat → Nat → K
  sqrt : K → K

/-- `blasfeo_dsymv_l`: entry `i` of the product with the symmetric matrix stored in the lower triangle -/
def symv (ny : Nat) (W : Nat → Nat → K) (r : Nat → K) (i : Nat) : K :=
  ∑ j ∈ range ny, (if j ≤ i then W i j else W j i) * r j

/-- `blasfeo_dtrmm_rlnn`: `A * L` with `L` lower triangular -/
def trmm (ny : Nat) (A L : Nat → Nat → K) (i y : Nat) : K := ∑ k ∈ Ico y ny, A i k * L k y

/-- `blasfeo_dgemm_nd`: `A * diag(d)` -/
def gemmNd (A : Nat → Nat → K) (d : Nat → K) (i y : Nat) : K := A i y * d y

/-- `blasfeo_dsyrk_ln`: lower triangle of `alpha A Aᵀ + beta C` -/
def syrk (ny : Nat) (alpha : K) (A : Nat → Nat → K) (beta : K) (C : Nat → Nat → K) (i j : Nat) : K :=
  if j ≤ i then alpha * ∑ y ∈ range ny, A i y * A j y + beta * C i j else C i j

/-- the slack part of the gradient before scaling: `blasfeo_dveccp`, `blasfeo_dvecmulacc`
(`ocp_nlp_cost_ls.c` lines 986-988 and the identical lines of the other modules); index relative to `nu + nx` -/
def slackGrad (nv : Nat) (sz sZ ux : Nat → K) (i : Nat) : K := sz i + sZ i * ux (nv + i)

/-- the slack part of the cost value before scaling (`ocp_nlp_cost_ls.c` lines 990-995):
`tmp_2ns = 2 z + Z .* s`, then `0.5 * tmp_2nsᵀ s` -/
def slackFun (nv ns2 : Nat) (sz sZ ux : Nat → K) : K :=
  1 / 2 * ∑ i ∈ range ns2, (2 * sz i + sZ i * ux (nv + i)) * ux (nv + i)

/-- gradient vector of length `nu + nx + 2 ns` from its parts, after scaling (`ocp_nlp_cost_ls.c` lines 997-1002) -/
def scaledGrad (nv : Nat) (s : K) (g sg : Nat → K) (i : Nat) : K :=
  if s ≠ 1 then s * (if i < nv then g i else sg (i - nv)) else (if i < nv then g i else sg (i - nv))

/-- value after scaling -/
def scaledFun (s v : K) : K := if s ≠ 1 then v * s else v

/-! ## Linear least squares -/

/-- `ocp_nlp_cost_ls_model`: `Cyt` is `(nu + nx) × ny`, `Vz` is `ny × nz` -/
structure LsModel (K : Type*) where
  W : Nat → Nat → K
  Cyt : Nat → Nat → K
  Vz : Nat → Nat → K
  yref : Nat → K
  Z : Nat → K
  z : Nat → K
  scaling : K
  diag : Bool
  wChanged : Bool
  cytChanged : Bool

/-- `ocp_nlp_cost_ls_memory` and the QP memory it writes -/
structure LsMem (K : Type*) where
  hess : Nat → Nat → K
  chol : Nat → Nat → K
  cholDiag : Nat → K
  Z : Nat → K
  RSQ : Nat → Nat → K
  grad : Nat → K
  fn : K

/-- the fields of `ocp_nlp_cost_ls_model_set`, lines 243-369 -/
inductive LsField (K : Type*)
  | W (v : Nat → Nat → K)
  | Cyt (v : Nat → Nat → K)
  | Vx (v : Nat → Nat → K)
  | Vu (v : Nat → Nat → K)
  | Vz (v : Nat → Nat → K)
  | yref (v : Nat → K)
  | Z (v : Nat → K)
  | Zl (v : Nat → K)
  | Zu (v : Nat → K)
  | z (v : Nat → K)
  | zl (v : Nat → K)
  | zu (v : Nat → K)
  | scaling (v : K)

/-- detection of a diagonal weight, lines 268-293: only for more than four outputs -/
def isDiag (ny : Nat) (W : Nat → Nat → K) : Bool :=
  decide (4 < ny) && (List.range ny).all fun i => (List.range ny).all fun j => decide (j = i) || decide (W i j = 0)

/-- what `blasfeo_dpotrf_l` (lower triangle of `L Lᵀ` equals that of `W`) or, for a diagonal weight, `sqrt` have to
deliver for a weight matrix; contract of the external routines, exact arithmetic -/
def Factorizes (e : Ext K) (ny : Nat) (W : Nat → Nat → K) : Prop :=
  if isDiag ny W then ∀ i < ny, e.sqrt (W i i) * e.sqrt (W i i) = W i i
  else ∀ i < ny, ∀ j ≤ i, ∑ k ∈ range (j + 1), e.potrf W i k * e.potrf W j k = W i j

/-- `ocp_nlp_cost_ls_model_set`, lines 243-369 -/
def lsSet (d : Dims) (m : LsModel K) : LsField K → LsModel K
  | .W v => { m with W := v, wChanged := true, diag := isDiag d.ny v }
  | .Cyt v => { m with Cyt := v, cytChanged := true }
  | .Vx v => { m with Cyt := fun i y => if d.nu ≤ i then v y (i - d.nu) else m.Cyt i y, cytChanged := true }
  | .Vu v => { m with Cyt := fun i y => if i < d.nu then v y i else m.Cyt i y, cytChanged := true }
  | .Vz v => { m with Vz := v }
  | .yref v => { m with yref := v }
  | .Z v => { m with Z := fun i => if i < d.ns then v i else v (i - d.ns) }
  | .Zl v => { m with Z := fun i => if i < d.ns then v i else m.Z i }
  | .Zu v => { m with Z := fun i => if i < d.ns then m.Z i else v (i - d.ns) }
  | .z v => { m with z := fun i => if i < d.ns then v i else v (i - d.ns) }
  | .zl v => { m with z := fun i => if i < d.ns then v i else m.z i }
  | .zu v => { m with z := fun i => if i < d.ns then m.z i else v (i - d.ns) }
  | .scaling v => { m with scaling := v, cytChanged := true }

/-- model and memory -/
structure LsState (K : Type*) where
  m : LsModel K
  mem : LsMem K

/-- first part of `ocp_nlp_cost_ls_update_W_factorization`, lines 811-828 -/
def lsFactor (e : Ext K) (s : LsState K) : LsState K :=
  if s.m.wChanged then
    { m := { s.m with wChanged := false, cytChanged := true }
      mem := if s.m.diag then { s.mem with cholDiag := fun i => e.sqrt (s.m.W i i) }
             else { s.mem with chol := e.potrf s.m.W } }
  else s

/-- product of a `(nu + nx) × ny` matrix with the stored factor, lines 831-841 (also 921-932) -/
def lsTimesChol (ny : Nat) (m : LsModel K) (mem : LsMem K) (A : Nat → Nat → K) : Nat → Nat → K :=
  if m.diag then gemmNd A mem.cholDiag else trmm ny A mem.chol

/-- second part, lines 829-848 -/
def lsHess (d : Dims) (s : LsState K) : LsState K :=
  if s.m.cytChanged then
    { m := { s.m with cytChanged := false }
      mem := { s.mem with hess := syrk d.ny s.m.scaling (lsTimesChol d.ny s.m s.mem s.m.Cyt) 0 s.mem.hess } }
  else s

/-- `ocp_nlp_cost_ls_update_W_factorization`, lines 798-850 -/
def lsUpdateW (d : Dims) (e : Ext K) (s : LsState K) : LsState K := lsHess d (lsFactor e s)

/-- `ocp_nlp_cost_ls_precompute`, lines 854-860 -/
def lsPrecompute (d : Dims) (e : Ext K) (s : LsState K) : LsState K :=
  lsUpdateW d e { s with m := { s.m with wChanged := true } }

/-- `ocp_nlp_cost_ls_initialize`, lines 864-879 -/
def lsInitialize (d : Dims) (e : Ext K) (s : LsState K) : LsState K :=
  let t := lsUpdateW d e s
  { t with mem := { t.mem with Z := fun i => t.m.scaling * t.m.Z i } }

/-- iterate and algebraic variables the module sees through its pointers; `dz i k` is `dzdux_tran` -/
structure Point (K : Type*) where
  ux : Nat → K
  z : Nat → K
  dz : Nat → Nat → K

/-- `Cyt_tilde`, lines 909-911; the untransformed matrix without algebraic variables -/
def lsCyt (d : Dims) (m : LsModel K) (p : Point K) (i y : Nat) : K :=
  if 0 < d.nz then ∑ k ∈ range d.nz, p.dz i k * m.Vz y k + m.Cyt i y else m.Cyt i y

/-- `y_ref_tilde`, lines 913-918 -/
def lsYref (d : Dims) (m : LsModel K) (p : Point K) (y : Nat) : K :=
  if 0 < d.nz then
    ∑ k ∈ range d.nz, m.Vz y k * (∑ i ∈ range d.nv, p.dz i k * p.ux i - p.z k) + m.yref y
  else m.yref y

/-- `res`, lines 947-949 and 971-973 -/
def lsRes (d : Dims) (m : LsModel K) (p : Point K) (y : Nat) : K :=
  ∑ i ∈ range d.nv, lsCyt d m p i y * p.ux i - lsYref d m p y

/-- the Hessian block, lines 917-945 and 954-968; `add` is `add_hess_contribution` (`compute_hess` is set) -/
def lsRSQ (d : Dims) (add : Bool) (s : LsState K) (p : Point K) : Nat → Nat → K :=
  if 0 < d.nz then
    syrk d.ny s.m.scaling (lsTimesChol d.ny s.m s.mem (lsCyt d s.m p)) (if add then 1 else 0) s.mem.RSQ
  else if add then fun i j => s.mem.RSQ i j + s.mem.hess i j
  else s.mem.hess

/-- `ocp_nlp_cost_ls_update_qp_matrices`, lines 883-1005 -/
def lsUpdate (d : Dims) (add : Bool) (s : LsState K) (p : Point K) : LsState K :=
  let r := lsRes d s.m p
  let wr := symv d.ny s.m.W r
  { s with mem := { s.mem with
      RSQ := lsRSQ d add s p
      grad := scaledGrad d.nv s.m.scaling (fun i => ∑ y ∈ range d.ny, lsCyt d s.m p i y * wr y)
        (slackGrad d.nv s.m.z s.m.Z p.ux)
      fn := scaledFun s.m.scaling (1 / 2 * ∑ y ∈ range d.ny, wr y * r y
        + slackFun d.nv (2 * d.ns) s.m.z s.m.Z p.ux) } }

/-- `tmp_ny = W_cholᵀ res`, lines 1066-1077 (`dtrmv_ltn` multiplies with the transposed lower triangle) -/
def lsCholRes (ny : Nat) (m : LsModel K) (mem : LsMem K) (r : Nat → K) (y : Nat) : K :=
  if m.diag then mem.cholDiag y * r y else ∑ k ∈ Ico y ny, mem.chol k y * r k

/-- `ocp_nlp_cost_ls_compute_fun`, lines 1016-1099 -/
def lsComputeFun (d : Dims) (s : LsState K) (p : Point K) : LsState K :=
  let t := lsCholRes d.ny s.m s.mem (lsRes d s.m p)
  { s with mem := { s.mem with
      fn := scaledFun s.m.scaling (1 / 2 * ∑ y ∈ range d.ny, t y * t y
        + slackFun d.nv (2 * d.ns) s.m.z s.m.Z p.ux) } }

/-- calls a solver and its user make on the module -/
inductive LsOp (K : Type*)
  | set (f : LsField K)
  | precompute
  | init
  | update (add : Bool) (p : Point K)
  | computeFun (p : Point K)

/-- effect of one call -/
def lsStep (d : Dims) (e : Ext K) (s : LsState K) : LsOp K → LsState K
  | .set f => { s with m := lsSet d s.m f }
  | .precompute => lsPrecompute d e s
  | .init => lsInitialize d e s
  | .update add p => lsUpdate d add s p
  | .computeFun p => lsComputeFun d s p

/-- `ocp_nlp_cost_ls_model_assign`, lines 186-239: what is not initialised there is arbitrary -/
structure LsFresh (s : LsState K) : Prop where
  w : s.m.wChanged = true

/-! ## Nonlinear least squares -/

/-- `ocp_nlp_cost_nls_model`; the external functions return residual, transposed Jacobian in `(u, x)`, Jacobian in
`z` and the second-order term `∑_y v_y ∇² y_y` at a given point -/
structure NlsModel (K : Type*) where
  W : Nat → Nat → K
  yref : Nat → K
  Z : Nat → K
  z : Nat → K
  scaling : K
  diag : Bool
  yFun : (Nat → K) → (Nat → K) → Nat → K
  Jt : (Nat → K) → (Nat → K) → Nat → Nat → K
  Vz : (Nat → K) → (Nat → K) → Nat → Nat → K
  yHess : (Nat → K) → (Nat → K) → (Nat → K) → Nat → Nat → K

/-- `ocp_nlp_cost_nls_memory` and the QP memory it writes -/
structure NlsMem (K : Type*) where
  chol : Nat → Nat → K
  cholDiag : Nat → K
  RSQ : Nat → Nat → K
  grad : Nat → K
  fn : K

/-- options -/
structure NlsOpts where
  gaussNewton : Bool
  integratorCost : Bool
  add : Bool

/-- `ocp_nlp_cost_nls_update_W_factorization` with the flag set, lines 777-804 -/
def nlsFactor (e : Ext K) (m : NlsModel K) (mem : NlsMem K) : NlsMem K :=
  if m.diag then { mem with cholDiag := fun i => e.sqrt (m.W i i) } else { mem with chol := e.potrf m.W }

/-- `Cyt_tilde` or `Jt`, lines 906-910 -/
def nlsJt (d : Dims) (m : NlsModel K) (p : Point K) (i y : Nat) : K :=
  if 0 < d.nz then ∑ k ∈ range d.nz, p.dz i k * m.Vz p.ux p.z y k + m.Jt p.ux p.z i y else m.Jt p.ux p.z i y

/-- residual, lines 891-897 -/
def nlsRes (m : NlsModel K) (p : Point K) (y : Nat) : K := m.yFun p.ux p.z y - m.yref y

/-- product with the stored factor, lines 916-945 -/
def nlsTimesChol (d : Dims) (m : NlsModel K) (mem : NlsMem K) (p : Point K) : Nat → Nat → K :=
  if m.diag then gemmNd (nlsJt d m p) mem.cholDiag else trmm d.ny (nlsJt d m p) mem.chol

/-- Hessian block, lines 963-998; `none` is the error exit for algebraic variables with exact Hessian -/
def nlsRSQ (d : Dims) (o : NlsOpts) (m : NlsModel K) (mem : NlsMem K) (p : Point K) : Option (Nat → Nat → K) :=
  let gn := syrk d.ny m.scaling (nlsTimesChol d m mem p) (if o.add then 1 else 0) mem.RSQ
  if o.gaussNewton then some gn
  else if 0 < d.nz then none
  else some fun i j => gn i j + m.scaling * m.yHess p.ux p.z (symv d.ny m.W (nlsRes m p)) i j

/-- `ocp_nlp_cost_nls_update_qp_matrices`, lines 836-1038 -/
def nlsUpdate (d : Dims) (o : NlsOpts) (m : NlsModel K) (mem : NlsMem K) (p : Point K) : Option (NlsMem K) :=
  let sg := slackGrad d.nv m.z m.Z p.ux
  let sf := slackFun d.nv (2 * d.ns) m.z m.Z p.ux
  if o.integratorCost then
    some { mem with
      grad := fun i => if i < d.nv then mem.grad i else scaledFun m.scaling (sg (i - d.nv))
      fn := mem.fn + sf }
  else
    let r := nlsRes m p
    let wr := symv d.ny m.W r
    (nlsRSQ d o m mem p).map fun h =>
      { mem with
        RSQ := h
        grad := scaledGrad d.nv m.scaling (fun i => ∑ y ∈ range d.ny, nlsJt d m p i y * wr y) sg
        fn := scaledFun m.scaling (1 / 2 * ∑ y ∈ range d.ny, wr y * r y + sf) }

/-- `ocp_nlp_cost_nls_compute_fun`, lines 1051-1139 -/
def nlsComputeFun (d : Dims) (o : NlsOpts) (m : NlsModel K) (mem : NlsMem K) (p : Point K) : K :=
  let sf := slackFun d.nv (2 * d.ns) m.z m.Z p.ux
  if o.integratorCost then mem.fn + sf
  else
    let t : Nat → K := fun y => if m.diag then mem.cholDiag y * nlsRes m p y
      else ∑ k ∈ Ico y d.ny, mem.chol k y * nlsRes m p k
    scaledFun m.scaling (1 / 2 * ∑ y ∈ range d.ny, t y * t y + sf)

/-! ## Convex-over-nonlinear -/

/-- outputs of the generated functions of `ocp_nlp_cost_conl.c` at a point: value, gradient of the outer loss,
inner Jacobians (transposed), outer Hessian, diagonal flag -/
structure ConlModel (K : Type*) where
  Z : Nat → K
  z : Nat → K
  scaling : K
  value : (Nat → K) → (Nat → K) → K
  outer : (Nat → K) → (Nat → K) → Nat → K
  Jux : (Nat → K) → (Nat → K) → Nat → Nat → K
  Jz : (Nat → K) → (Nat → K) → Nat → Nat → K
  W : (Nat → K) → (Nat → K) → Nat → Nat → K
  diag : (Nat → K) → (Nat → K) → Bool

/-- `Jt_ux_tilde` or `Jt_ux`, lines 793-798 -/
def conlJt (d : Dims) (m : ConlModel K) (p : Point K) (i y : Nat) : K :=
  if 0 < d.nz then ∑ k ∈ range d.nz, p.dz i k * m.Jz p.ux p.z k y + m.Jux p.ux p.z i y else m.Jux p.ux p.z i y

/-- `tmp_nv_ny`, lines 778-791 and 804-834 -/
def conlTimesChol (d : Dims) (e : Ext K) (m : ConlModel K) (p : Point K) : Nat → Nat → K :=
  if m.diag p.ux p.z then gemmNd (conlJt d m p) (fun i => e.sqrt (m.W p.ux p.z i i))
  else trmm d.ny (conlJt d m p) (e.potrf (m.W p.ux p.z))

/-- `ocp_nlp_cost_conl_update_qp_matrices`, lines 707-867 (`integrator_cost` off): Hessian, gradient, value -/
def conlUpdate (d : Dims) (e : Ext K) (add : Bool) (m : ConlModel K) (RSQ : Nat → Nat → K) (p : Point K) :
    (Nat → Nat → K) × (Nat → K) × K :=
  (syrk d.ny m.scaling (conlTimesChol d e m p) (if add then 1 else 0) RSQ,
   scaledGrad d.nv m.scaling (fun i => ∑ y ∈ range d.ny, conlJt d m p i y * m.outer p.ux p.z y)
     (slackGrad d.nv m.z m.Z p.ux),
   scaledFun m.scaling (m.value p.ux p.z + slackFun d.nv (2 * d.ns) m.z m.Z p.ux))

/-- `ocp_nlp_cost_conl_compute_fun`, lines 984-1049 (`integrator_cost` off) -/
def conlComputeFun (d : Dims) (m : ConlModel K) (p : Point K) : K :=
  scaledFun m.scaling (m.value p.ux p.z + slackFun d.nv (2 * d.ns) m.z m.Z p.ux)

/-! ## External cost -/

/-- outputs of the generated functions of `ocp_nlp_cost_external.c`: value, gradient in `(u, x, z)` (length
`nu + nx + nz`), Hessian blocks `∂²/∂(u,x)²`, `∂²/∂z²` and `∂²/∂z∂(u,x)` (`nz × (nu + nx)`, see
`casadi_function_generation.py` lines 535-547) -/
structure ExtModel (K : Type*) where
  Z : Nat → K
  z : Nat → K
  scaling : K
  value : (Nat → K) → (Nat → K) → K
  grad : (Nat → K) → (Nat → K) → Nat → K
  hux : (Nat → K) → (Nat → K) → Nat → Nat → K
  hzz : (Nat → K) → (Nat → K) → Nat → Nat → K
  hzux : (Nat → K) → (Nat → K) → Nat → Nat → K

/-- gradient in `(u, x)`, lines 827-832 -/
def extGrad (d : Dims) (m : ExtModel K) (p : Point K) (i : Nat) : K :=
  if 0 < d.nz then ∑ k ∈ range d.nz, p.dz i k * m.grad p.ux p.z (d.nv + k) + m.grad p.ux p.z i
  else m.grad p.ux p.z i

/-- lower triangle of the Hessian block (exact Hessian, not added to earlier contributions), lines 797-824.
`blasfeo_dsyr2k_ln(n, k, α, A, B, ...)` computes `α (A Bᵀ + B Aᵀ)` for `n × k` matrices `A`, `B`; here it is given
the `nz × (nu + nx)` matrix `hzux` as `B`, so entry `B i k` is `hzux i k`: for `i ≥ nz` this is outside the matrix,
the value read there is the parameter `oob`. -/
def extHess (d : Dims) (oob : Nat → Nat → K) (m : ExtModel K) (p : Point K) (i j : Nat) : K :=
  let B : Nat → Nat → K := fun i k => if i < d.nz then m.hzux p.ux p.z i k else oob i k
  if 0 < d.nz then
    m.scaling * m.hux p.ux p.z i j
      + m.scaling * ∑ k ∈ range d.nz, (p.dz i k * B j k + B i k * p.dz j k)
      + m.scaling * ∑ k ∈ range d.nz, p.dz i k * ∑ l ∈ range d.nz, m.hzz p.ux p.z k l * p.dz j l
  else m.scaling * m.hux p.ux p.z i j

/-- gradient and value of `ocp_nlp_cost_external_update_qp_matrices`, lines 826-852 -/
def extUpdate (d : Dims) (m : ExtModel K) (p : Point K) : (Nat → K) × K :=
  (scaledGrad d.nv m.scaling (extGrad d m p) (slackGrad d.nv m.z m.Z p.ux),
   scaledFun m.scaling (m.value p.ux p.z + slackFun d.nv (2 * d.ns) m.z m.Z p.ux))

/-- `ocp_nlp_cost_external_compute_fun`, lines 938-1001 -/
def extComputeFun (d : Dims) (m : ExtModel K) (p : Point K) : K :=
  scaledFun m.scaling (m.value p.ux p.z + slackFun d.nv (2 * d.ns) m.z m.Z p.ux)

/-- `ocp_nlp_cost_external_compute_gradient`, lines 862-933: the gradient, and what is left in the value field -/
def extComputeGradient (d : Dims) (m : ExtModel K) (p : Point K) : (Nat → K) × K :=
  (scaledGrad d.nv m.scaling (extGrad d m p) (slackGrad d.nv m.z m.Z p.ux), m.value p.ux p.z)

end Acados.Cost
