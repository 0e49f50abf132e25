import Mathlib.Algebra.BigOperators.Group.Finset.Basic
import Mathlib.Algebra.Order.Field.Basic

/-!
# The cost of a problem description

The fields of `AcadosOcpCost`, `AcadosModel` and `AcadosOcpDims` that determine the stage costs, what it means that
they are well-formed, and the stage cost they stand for.  Expressions are given by their lengths.
-/

namespace Acados.OcpCost
open Finset

/-- a two-dimensional array; only the entries in its range exist -/
structure Arr (K : Type) where
  rows : Nat
  cols : Nat
  el : Nat → Nat → K

/-- `cost_type`: `LINEAR_LS`, `NONLINEAR_LS`, `CONVEX_OVER_NONLINEAR`, `EXTERNAL` -/
inductive Kind
  | ls | nls | conl | ext
  deriving DecidableEq

/-- the fields of `ocp_nlp_cost_model_set` that carry data -/
inductive Fld
  | scaling | yref | W | Vx | Vu | Vz | Zl | Zu | zl | zu
  deriving DecidableEq

/-- the cost of one stage -/
structure Cost (K : Type) where
  kind : Kind
  W : Arr K
  Vx : Arr K
  Vu : Arr K
  Vz : Arr K
  yref : List K
  /-- `W` or `yref` is a CasADi expression -/
  sym : Bool
  /-- lengths of `cost_y_expr`, `cost_r_in_psi_expr`, `cost_psi_expr`; 0: not given -/
  nyExpr : Nat
  nr : Nat
  npsi : Nat
  /-- length of `cost_expr_ext_cost`; `none`: neither a number nor a CasADi expression -/
  extLen : Option Nat
  /-- shape of the custom Hessian, if there is one -/
  hess : Option (Nat × Nat)

/-- slack penalties `Zl`, `Zu`, `zl`, `zu` of one stage -/
structure Pen (K : Type) where
  Zl : List K
  Zu : List K
  zl : List K
  zu : List K

/-- a problem description -/
structure Desc (K : Type) where
  N : Nat
  nx : Nat
  nu : Nat
  nz : Nat
  /-- the Hessian approximation is one that a convex-over-nonlinear cost allows -/
  conlHess : Bool
  /-- `none`: `cost_type_0` is `None` -/
  cost0 : Option (Cost K)
  cost : Cost K
  costE : Cost K
  /-- `dims.ny_0`, `dims.ny`, `dims.ny_e` -/
  ny0 : Nat
  ny : Nat
  nyE : Nat
  /-- `dims.ns_0`, `dims.ns`, `dims.ns_e` -/
  ns0 : Nat
  ns : Nat
  nsE : Nat
  pen0 : Pen K
  pen : Pen K
  penE : Pen K
  /-- `solver_options.cost_scaling` -/
  scaling : List K

section
variable {K : Type}

/-- the number of outputs of a cost, 0 without outputs -/
def Cost.ny (c : Cost K) : Nat :=
  match c.kind with
  | .ls => c.W.rows
  | .nls => c.W.rows
  | .conl => c.nyExpr
  | .ext => 0

/-- the cost of stage `k`: terminal, initial (that of the other stages if not set), intermediate -/
def Desc.at (D : Desc K) (k : Nat) : Cost K :=
  if k = D.N then D.costE else if k = 0 then D.cost0.getD D.cost else D.cost

/-- the slack penalties of stage `k` -/
def Desc.penAt (D : Desc K) (k : Nat) : Pen K := if k = D.N then D.penE else if k = 0 then D.pen0 else D.pen

/-- the number of slacks of stage `k` -/
def Desc.nsAt (D : Desc K) (k : Nat) : Nat := if k = D.N then D.nsE else if k = 0 then D.ns0 else D.ns

/-- there are no controls at the terminal stage -/
def Desc.nuAt (D : Desc K) (k : Nat) : Nat := if k = D.N then 0 else D.nu

/-- and no algebraic variables -/
def Desc.nzAt (D : Desc K) (k : Nat) : Nat := if k = D.N then 0 else D.nz

/-- slack penalties and scaling factors have the lengths the checks of soft constraints (C99) and of the time grid
(C98) ensure -/
def Desc.Sized (D : Desc K) : Prop :=
  D.scaling.length = D.N + 1 ∧ ∀ k, (D.penAt k).Zl.length = D.nsAt k ∧ (D.penAt k).Zu.length = D.nsAt k
    ∧ (D.penAt k).zl.length = D.nsAt k ∧ (D.penAt k).zu.length = D.nsAt k

variable [Field K]

/-- `rᵀ W r` -/
def form (n : Nat) (W : Nat → Nat → K) (r : Nat → K) : K := ∑ i ∈ range n, ∑ j ∈ range n, W i j * r i * r j

/-- `Vx x + Vu u + Vz z - yref` -/
def residual (nx nu nz : Nat) (c : Cost K) (x u z : Nat → K) (i : Nat) : K :=
  ∑ j ∈ range nx, c.Vx.el i j * x j + ∑ j ∈ range nu, c.Vu.el i j * u j + ∑ j ∈ range nz, c.Vz.el i j * z j
    - c.yref.getD i 0

/-- `zlᵀ sl + zuᵀ su + ½ (slᵀ Zl sl + suᵀ Zu su)` -/
def penalty (ns : Nat) (p : Pen K) (sl su : Nat → K) : K :=
  ∑ i ∈ range ns, (p.zl.getD i 0 * sl i + p.zu.getD i 0 * su i
    + 1 / 2 * (p.Zl.getD i 0 * sl i * sl i + p.Zu.getD i 0 * su i * su i))

/-- the linear least-squares cost of stage `k` that the description stands for -/
def stageCost (D : Desc K) (k : Nat) (x u z sl su : Nat → K) : K :=
  D.scaling.getD k 0 * (1 / 2 * form (D.at k).W.rows (D.at k).W.el
      (residual D.nx (D.nuAt k) (D.nzAt k) (D.at k) x u z)
    + penalty (D.nsAt k) (D.penAt k) sl su)

variable [LinearOrder K]

/-- `lam` is the smallest eigenvalue of the symmetric matrix with the lower triangle of `W` -/
def IsMinEig (W : Arr K) (lam : K) : Prop :=
  let q := form W.rows fun i j => if j ≤ i then W.el i j else W.el j i
  (∀ v : Nat → K, lam * ∑ i ∈ range W.rows, v i * v i ≤ q v)
    ∧ ∃ v : Nat → K, 0 < ∑ i ∈ range W.rows, v i * v i ∧ q v = lam * ∑ i ∈ range W.rows, v i * v i

/-- a weighting matrix: symmetric, and diagonal with nonnegative entries or positive definite with a margin above
`10⁻¹⁰` -/
def GoodWeight (W : Arr K) : Prop :=
  W.rows = W.cols ∧ (∀ i < W.rows, ∀ j < W.rows, W.el i j = W.el j i) ∧
  (((∀ i < W.rows, ∀ j < W.rows, i ≠ j → W.el i j = 0) ∧ ∀ i < W.rows, 0 ≤ W.el i i)
    ∨ ∃ lam, 1 / 10 ^ 10 < lam ∧ ∀ v : Nat → K, lam * ∑ i ∈ range W.rows, v i * v i ≤ form W.rows W.el v)

/-- what `np.allclose` and the eigenvalues leave open: symmetry up to `10⁻¹⁰ + 10⁻⁵ |W_ji|`, and a quadratic form of the
lower triangle that is nonnegative up to `10⁻¹⁰ ‖v‖₁²` -/
def NearWeight (W : Arr K) : Prop :=
  W.rows = W.cols ∧ (∀ i < W.rows, ∀ j < W.rows, |W.el i j - W.el j i| ≤ 1 / 10 ^ 10 + 1 / 10 ^ 5 * |W.el j i|) ∧
  ∀ v : Nat → K, -(1 / 10 ^ 10 * ((∑ i ∈ range W.rows, |v i|) * ∑ i ∈ range W.rows, |v i|))
    ≤ form W.rows (fun i j => if j ≤ i then W.el i j else W.el j i) v

/-- contract of the eigenvalue routine: what it returns for a square matrix is the smallest eigenvalue -/
def EigOk (eig : Arr K → Option K) : Prop :=
  ∀ A lam, A.rows = A.cols → 0 < A.rows → eig A = some lam → IsMinEig A lam

/-- the data of one stage fit together; `W` is a weighting matrix in the sense of `good` -/
def WellFormed (good : Arr K → Prop) (nx nu nz : Nat) (conlHess : Bool) (c : Cost K) : Prop :=
  match c.kind with
  | .ls => c.sym = false ∧ good c.W ∧ c.yref.length = c.W.rows
      ∧ c.Vx.rows = c.W.rows ∧ (c.W.rows ≠ 0 → c.Vx.cols = nx)
      ∧ c.Vu.rows = c.W.rows ∧ (c.W.rows ≠ 0 → c.Vu.cols = nu)
      ∧ (nz ≠ 0 → c.Vz.rows = c.W.rows ∧ (c.W.rows ≠ 0 → c.Vz.cols = nz))
  | .nls => c.sym = false ∧ good c.W ∧ c.yref.length = c.W.rows ∧ c.nyExpr = c.W.rows
  | .conl => 0 < c.nyExpr ∧ c.nr = c.nyExpr ∧ c.npsi = 1 ∧ c.yref.length = c.nyExpr ∧ conlHess = true
  | .ext => c.extLen = some 1 ∧ (c.hess = none ∨ c.hess = some (nx + nu, nx + nu))

/-- the same at the terminal stage: no controls, no algebraic variables -/
def WellFormedE (good : Arr K → Prop) (nx : Nat) (conlHess : Bool) (c : Cost K) : Prop :=
  match c.kind with
  | .ls => c.sym = false ∧ good c.W ∧ c.yref.length = c.W.rows
      ∧ c.Vx.rows = c.W.rows ∧ (c.W.rows ≠ 0 → c.Vx.cols = nx)
  | .nls => c.sym = false ∧ good c.W ∧ c.yref.length = c.W.rows ∧ c.nyExpr = c.W.rows
  | .conl => 0 < c.nyExpr ∧ c.nr = c.nyExpr ∧ c.npsi = 1 ∧ c.yref.length = c.nyExpr ∧ conlHess = true
  | .ext => c.extLen = some 1 ∧ (c.hess = none ∨ c.hess = some (nx, nx))

/-- `Vz` has one column for each algebraic variable -/
def VzFits (nz : Nat) (c : Cost K) : Prop := c.kind = .ls → c.W.rows ≠ 0 → nz ≠ 0 → c.Vz.cols = nz

/-- the costs of all stages are well-formed -/
def Desc.Good (good : Arr K → Prop) (D : Desc K) : Prop :=
  (0 < D.N → WellFormed good D.nx D.nu D.nz D.conlHess (D.cost0.getD D.cost)
      ∧ WellFormed good D.nx D.nu D.nz D.conlHess D.cost)
    ∧ WellFormedE good D.nx D.conlHess D.costE

/-- the fields that the cost of stage `k` depends on -/
def Needed (D : Desc K) (k : Nat) : Fld → Prop
  | .scaling => True
  | .yref => (D.at k).ny ≠ 0
  | .W => (D.at k).ny ≠ 0 ∧ ((D.at k).kind = .ls ∨ (D.at k).kind = .nls)
  | .Vx => (D.at k).ny ≠ 0 ∧ (D.at k).kind = .ls
  | .Vu => (D.at k).ny ≠ 0 ∧ (D.at k).kind = .ls ∧ 0 < D.nuAt k
  | .Vz => (D.at k).ny ≠ 0 ∧ (D.at k).kind = .ls ∧ 0 < D.nzAt k
  | _ => 0 < D.nsAt k

/-- what a buffer for a field of stage `k` has to contain: matrices are stored by columns with leading dimension
`ny` -/
def Means (D : Desc K) (k ny : Nat) : Fld → (Nat → K) → Prop
  | .scaling, b => b 0 = D.scaling.getD k 0
  | .yref, b => ∀ i < ny, b i = (D.at k).yref.getD i 0
  | .W, b => ∀ i < ny, ∀ j < ny, b (i + ny * j) = (D.at k).W.el i j
  | .Vx, b => ∀ i < ny, ∀ j < D.nx, b (i + ny * j) = (D.at k).Vx.el i j
  | .Vu, b => ∀ i < ny, ∀ j < D.nuAt k, b (i + ny * j) = (D.at k).Vu.el i j
  | .Vz, b => ∀ i < ny, ∀ j < D.nzAt k, b (i + ny * j) = (D.at k).Vz.el i j
  | .Zl, b => ∀ i < D.nsAt k, b i = (D.penAt k).Zl.getD i 0
  | .Zu, b => ∀ i < D.nsAt k, b i = (D.penAt k).Zu.getD i 0
  | .zl, b => ∀ i < D.nsAt k, b i = (D.penAt k).zl.getD i 0
  | .zu, b => ∀ i < D.nsAt k, b i = (D.penAt k).zu.getD i 0

end

end Acados.OcpCost
