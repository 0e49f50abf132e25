import Mathlib.Data.Matrix.Mul
import Mathlib.Data.Matrix.ColumnRowPartitioned
import Mathlib.Data.Fintype.Prod
import Mathlib.Algebra.Order.Field.Basic
/-!
# GNSF integrator (`acados/sim/sim_gnsf.c`)

`double` is an arbitrary ordered field.  A BLASFEO matrix whose rows (columns) are stacked stage blocks
is indexed by pairs (stage, component); in C the pair `(ii, r)` is row `ii * n + r`.  The rows of the
linear output system are indexed by `Fin nx2 ⊕ Fin nz2`, in C `nx2 + nz2` consecutive rows.  The model
arrays (`model->E` and so on) stay flat column-major arrays, as in the C struct.

BLASFEO's `dgetrf_rp` is a parameter returning an `Lu`; `IsLu` (see `Verif/Spec/Gnsf.lean`) is the
exactness assumption under which the theorems are stated.  Rounding is not modelled.
-/
namespace Acados.Gnsf
open Matrix

/-- `sim_gnsf_dims` and `opts->ns`, sim_gnsf.h / sim_gnsf.c:640-661 -/
structure Dims where
  s : Nat
  nx1 : Nat
  nz1 : Nat
  nu : Nat
  no : Nat
  ny : Nat
  nuh : Nat
  nx2 : Nat
  nz2 : Nat

abbrev K1 (d : Dims) := Fin d.s × Fin d.nx1
abbrev Z1 (d : Dims) := Fin d.s × Fin d.nz1
abbrev VV (d : Dims) := Fin d.s × Fin d.no
abbrev YI (d : Dims) := Fin d.s × Fin d.ny
abbrev XZ2 (d : Dims) := Fin d.nx2 ⊕ Fin d.nz2
abbrev K2 (d : Dims) := Fin d.s × XZ2 d

/-- matrices of `gnsf_model`, flat column-major arrays as in sim_gnsf.h and set by
`gnsf_get_matrices_fun`, sim_gnsf.c:178-258 -/
structure Mdl (K : Type*) where
  A : Nat → K
  B : Nat → K
  C : Nat → K
  E : Nat → K
  c : Nat → K
  L_x : Nat → K
  L_xdot : Nat → K
  L_z : Nat → K
  L_u : Nat → K
  A_LO : Nat → K
  B_LO : Nat → K
  E_LO : Nat → K
  c_LO : Nat → K
  nontrivial_f_LO : Bool

/-- integrator options: Butcher tableau (`A_mat` column-major), number of Newton iterations, tolerance,
Jacobian reuse -/
structure Opts (K : Type*) where
  A_mat : Nat → K
  b_vec : Nat → K
  newton_iter : Nat
  newton_tol : K
  jac_reuse : Bool

variable {K : Type*} [Field K] [LinearOrder K]

/-- result of `dgetrf_rp`: the row permutation held in `ipiv` and the two triangular factors together
with their inverses (the actions of `dtrsm_llnu` and `dtrsm_lunn`) -/
structure Lu (ι : Type*) (K : Type*) where
  perm : Equiv.Perm ι
  L : Matrix ι ι K
  U : Matrix ι ι K
  Linv : Matrix ι ι K
  Uinv : Matrix ι ι K

section Ops
variable {ι m n : Type*} [Fintype ι]

/-- `blasfeo_drowpe` -/
def rowpe (lu : Lu ι K) (X : Matrix ι n K) : Matrix ι n K := X.submatrix lu.perm id
/-- `blasfeo_dtrsm_llnu` followed by `blasfeo_dtrsm_lunn` -/
def trsm (lu : Lu ι K) (X : Matrix ι n K) : Matrix ι n K := lu.Uinv * (lu.Linv * X)
/-- `drowpe`, `dtrsm_llnu`, `dtrsm_lunn` in sequence -/
def solveM (lu : Lu ι K) (X : Matrix ι n K) : Matrix ι n K := trsm lu (rowpe lu X)
/-- `dvecpe`, `dtrsv_lnu`, `dtrsv_unn` in sequence -/
def solveV (lu : Lu ι K) (x : ι → K) : ι → K := lu.Uinv *ᵥ (lu.Linv *ᵥ (x ∘ lu.perm))
/-- `dtrsv_utn`, `dtrsv_ltu`, `dvecpei` in sequence, sim_gnsf.c:2990-2992 -/
def solveT (lu : Lu ι K) (x : ι → K) : ι → K :=
  (lu.Linvᵀ *ᵥ (lu.Uinvᵀ *ᵥ x)) ∘ lu.perm.symm

/-- `blasfeo_dgecp` of a block into row block `i` -/
def setRow {s : Nat} (i : Fin s) (B : Matrix m n K) (M : Matrix (Fin s × m) n K) :
    Matrix (Fin s × m) n K := fun p q => if p.1 = i then B p.2 q else M p q

/-- `blasfeo_dgecp` of a block into block `(i, j)` -/
def setBlk {s : Nat} (i j : Fin s) (B : Matrix m n K) (M : Matrix (Fin s × m) (Fin s × n) K) :
    Matrix (Fin s × m) (Fin s × n) K :=
  fun p q => if p.1 = i ∧ q.1 = j then B p.2 q.2 else M p q

/-- `blasfeo_dgead` of a block into block `(i, j)` -/
def addBlk {s : Nat} (α : K) (i j : Fin s) (B : Matrix m n K) (M : Matrix (Fin s × m) (Fin s × n) K) :
    Matrix (Fin s × m) (Fin s × n) K :=
  fun p q => if p.1 = i ∧ q.1 = j then M p q + α * B p.2 q.2 else M p q

/-- row block `i` of a stacked matrix (`ii * n` row offset of a BLASFEO call) -/
def rowBlk {s : Nat} (i : Fin s) (M : Matrix (Fin s × m) n K) : Matrix m n K := fun r c => M (i, r) c

/-- `blasfeo_dvecpack`/`dveccp` into vector block `i` -/
def setVec {s : Nat} (i : Fin s) (b : m → K) (v : Fin s × m → K) : Fin s × m → K :=
  fun p => if p.1 = i then b p.2 else v p

end Ops

/-- loop `for (ii = 0; ii < num_stages; ii++)` -/
def stages {α : Type*} (s : Nat) (f : α → Fin s → α) (a : α) : α := (List.finRange s).foldl f a

/-- `blasfeo_pack_dmat(m, n, &a[off], ld, …)` -/
def pack {m n : Nat} (a : Nat → K) (off ld : Nat) : Matrix (Fin m) (Fin n) K :=
  fun i j => a (off + i + ld * j)

/-- position of a row of the linear output system in `nx2 + nz2` consecutive rows -/
def pos2 (d : Dims) : XZ2 d → Nat := Sum.elim (fun i => i.val) (fun i => d.nx2 + i.val)

/-- `blasfeo_pack_dmat(nxz2, n, a, nxz2, …)` -/
def packLO (d : Dims) {n : Nat} (a : Nat → K) : Matrix (XZ2 d) (Fin n) K :=
  fun i j => a (pos2 d i + (d.nx2 + d.nz2) * j)

section Blocks
variable (d : Dims) (m : Mdl K)
/-- sim_gnsf.c:791 -/
def E11 : Matrix (Fin d.nx1) (Fin d.nx1) K := pack m.E 0 (d.nx1 + d.nz1)
/-- sim_gnsf.c:793 -/
def E12 : Matrix (Fin d.nx1) (Fin d.nz1) K := pack m.E ((d.nx1 + d.nz1) * d.nx1) (d.nx1 + d.nz1)
/-- sim_gnsf.c:794 -/
def E21 : Matrix (Fin d.nz1) (Fin d.nx1) K := pack m.E d.nx1 (d.nx1 + d.nz1)
/-- sim_gnsf.c:795 -/
def E22 : Matrix (Fin d.nz1) (Fin d.nz1) K :=
  pack m.E (d.nx1 + (d.nx1 + d.nz1) * d.nx1) (d.nx1 + d.nz1)
/-- sim_gnsf.c:797 -/
def A1 : Matrix (Fin d.nx1) (Fin d.nx1) K := pack m.A 0 (d.nx1 + d.nz1)
/-- sim_gnsf.c:798 -/
def A2 : Matrix (Fin d.nz1) (Fin d.nx1) K := pack m.A d.nx1 (d.nx1 + d.nz1)
/-- sim_gnsf.c:800 -/
def B1 : Matrix (Fin d.nx1) (Fin d.nu) K := pack m.B 0 (d.nx1 + d.nz1)
/-- sim_gnsf.c:801 -/
def B2 : Matrix (Fin d.nz1) (Fin d.nu) K := pack m.B d.nx1 (d.nx1 + d.nz1)
/-- sim_gnsf.c:803 -/
def C1 : Matrix (Fin d.nx1) (Fin d.no) K := pack m.C 0 (d.nx1 + d.nz1)
/-- sim_gnsf.c:804 -/
def C2 : Matrix (Fin d.nz1) (Fin d.no) K := pack m.C d.nx1 (d.nx1 + d.nz1)
/-- sim_gnsf.c:806 -/
def ALO : Matrix (XZ2 d) (Fin d.nx2) K := packLO d m.A_LO
/-- sim_gnsf.c:807 -/
def BLO : Matrix (XZ2 d) (Fin d.nu) K := packLO d m.B_LO
/-- sim_gnsf.c:808 -/
def LuM : Matrix (Fin d.nuh) (Fin d.nu) K := pack m.L_u 0 d.nuh
/-- sim_gnsf.c:832 -/
def Lz : Matrix (Fin d.ny) (Fin d.nz1) K := pack m.L_z 0 d.ny
/-- sim_gnsf.c:833 -/
def Lx : Matrix (Fin d.ny) (Fin d.nx1) K := pack m.L_x 0 d.ny
/-- sim_gnsf.c:834 -/
def Lxdot : Matrix (Fin d.ny) (Fin d.nx1) K := pack m.L_xdot 0 d.ny
/-- `model->E_LO` as packed in sim_gnsf.c:997 -/
def ELO : Matrix (XZ2 d) (XZ2 d) K := fun i j => m.E_LO (pos2 d i + (d.nx2 + d.nz2) * pos2 d j)
end Blocks

/-- `A_dt`, sim_gnsf.c:810-813 -/
def Adt (o : Opts K) (dt : K) (i : Nat) : K := o.A_mat i * dt
/-- `b_dt`, sim_gnsf.c:814-818 -/
def bdt (o : Opts K) (dt : K) (i : Nat) : K := o.b_vec i * dt

/-- Kronecker loop, sim_gnsf.c:848-858: for all `ii`, `jj`, block `(jj, ii)` gets
`f (A_dt[ii*ns+jj]) * B` added -/
def kron {μ ν : Type*} (s : Nat) (f : Nat → K) (B : Matrix μ ν K)
    (M : Matrix (Fin s × μ) (Fin s × ν) K) : Matrix (Fin s × μ) (Fin s × ν) K :=
  stages s (fun M ii => stages s (fun M jj => addBlk (f (ii.val * s + jj.val)) jj ii B M) M) M

section Fat
variable (d : Dims) (m : Mdl K) (o : Opts K) (dt : K)

/-- `AA1`, `AA2`, `BB1`, `BB2` (stage blocks copied below each other), sim_gnsf.c:823-826 -/
def stackM {μ ν : Type*} (s : Nat) (B : Matrix μ ν K) : Matrix (Fin s × μ) ν K :=
  stages s (fun M ii => setRow ii B M) 0

/-- block diagonal fill of a zeroed matrix, sim_gnsf.c:782-787 and 828-835 -/
def diagM {μ ν : Type*} (s : Nat) (B : Matrix μ ν K) : Matrix (Fin s × μ) (Fin s × ν) K :=
  stages s (fun M ii => setBlk ii ii B M) 0

/-- `CC1`, sim_gnsf.c:828 -/
def CC1 : Matrix (K1 d) (VV d) K := diagM d.s (C1 d m)
/-- `CC2`, sim_gnsf.c:829 -/
def CC2 : Matrix (Z1 d) (VV d) K := diagM d.s (C2 d m)
/-- `DD1`, sim_gnsf.c:831 -/
def DD1 : Matrix (K1 d) (Z1 d) K := diagM d.s (-(E12 d m))
/-- `DD2`, sim_gnsf.c:832 and 852-853 -/
def DD2 : Matrix (Z1 d) (K1 d) K := kron d.s (Adt o dt) (A2 d m) (diagM d.s (-(E21 d m)))
/-- `EE1`, sim_gnsf.c:834 and 854-855 -/
def EE1 : Matrix (K1 d) (K1 d) K :=
  kron d.s (fun i => - Adt o dt i) (A1 d m) (diagM d.s (E11 d m))
/-- `EE2`, sim_gnsf.c:835 -/
def EE2 : Matrix (Z1 d) (Z1 d) K := diagM d.s (E22 d m)
/-- `LLZ`, sim_gnsf.c:837: the diagonal blocks are written, the other entries are not zeroed, they keep
the content `w` of the workspace -/
def LLZ (w : Matrix (YI d) (Z1 d) K) : Matrix (YI d) (Z1 d) K :=
  stages d.s (fun M ii => setBlk ii ii (Lz d m) M) w
/-- `LLx`, sim_gnsf.c:838 -/
def LLx : Matrix (YI d) (Fin d.nx1) K := stackM d.s (Lx d m)
/-- `LLK`, sim_gnsf.c:839 and 856; the block added is the first row block of `LLx` -/
def LLK : Matrix (YI d) (K1 d) K :=
  stages d.s (fun M ii => stages d.s (fun M jj =>
    addBlk (Adt o dt (ii.val * d.s + jj.val)) jj ii
      (rowBlk ⟨0, Nat.lt_of_le_of_lt (Nat.zero_le _) ii.isLt⟩ (LLx d m)) M) M)
    (diagM d.s (Lxdot d m))
/-- `cc1`, sim_gnsf.c:844 -/
def cc1 : K1 d → K := stages d.s (fun v ii => setVec ii (fun r => m.c r.val) v) (fun _ => 0)
/-- `cc2`, sim_gnsf.c:845 -/
def cc2 : Z1 d → K := stages d.s (fun v ii => setVec ii (fun r => m.c (d.nx1 + r.val)) v) (fun _ => 0)
/-- `M2` before factorisation, sim_gnsf.c:789 and 994-1004.  `ALO` has `nx2` columns and is added to the
first `nx2` columns of each block; here it is padded with zero columns. -/
def M2 : Matrix (K2 d) (K2 d) K :=
  stages d.s (fun M ii =>
    stages d.s (fun M jj => addBlk (- Adt o dt (ii.val * d.s + jj.val)) jj ii
        (Matrix.fromCols (ALO d m) (0 : Matrix (XZ2 d) (Fin d.nz2) K)) M)
      (setBlk ii ii (ELO d m) M)) 0
end Fat

/-- the factorisations used, results of `dgetrf_rp` -/
structure Facts (d : Dims) (K : Type*) where
  ee1 : Lu (K1 d) K
  ee2 : Lu (Z1 d) K
  qq1 : Lu (Z1 d) K
  m2 : Lu (K2 d) K

/-- precomputed quantities kept in `sim_gnsf_memory` -/
structure Pre (d : Dims) (K : Type*) where
  KKv : Matrix (K1 d) (VV d) K
  KKx : Matrix (K1 d) (Fin d.nx1) K
  KKu : Matrix (K1 d) (Fin d.nu) K
  KK0 : K1 d → K
  ZZv : Matrix (Z1 d) (VV d) K
  ZZx : Matrix (Z1 d) (Fin d.nx1) K
  ZZu : Matrix (Z1 d) (Fin d.nu) K
  ZZ0 : Z1 d → K
  YYv : Matrix (YI d) (VV d) K
  YYx : Matrix (YI d) (Fin d.nx1) K
  YYu : Matrix (YI d) (Fin d.nu) K
  YY0 : YI d → K
  m2 : Lu (K2 d) K
  dK2_dx2 : Matrix (K2 d) (Fin d.nx2) K
  dK2_du : Matrix (K2 d) (Fin d.nu) K
  dx2f_dx2 : Matrix (Fin d.nx2) (Fin d.nx2) K
  dx2f_du : Matrix (Fin d.nx2) (Fin d.nu) K

section Precompute
variable (d : Dims) (m : Mdl K) (o : Opts K) (dt : K) (f : Facts d K)

/-- `QQ1` before factorisation, sim_gnsf.c:922-924 -/
def QQ1 : Matrix (Z1 d) (Z1 d) K :=
  -(solveM f.ee2 (DD2 d m o dt) * solveM f.ee1 (DD1 d m)) + 1

/-- `ZZv`, sim_gnsf.c:928-935 -/
def ZZv : Matrix (Z1 d) (VV d) K :=
  solveM f.qq1 (solveM f.ee2 (DD2 d m o dt) * solveM f.ee1 (CC1 d m) + solveM f.ee2 (CC2 d m))
/-- `ZZu`, sim_gnsf.c:938-945 and 953: the permutation meant for `ZZx` is applied to `ZZu` again, after
it has been solved for -/
def ZZu : Matrix (Z1 d) (Fin d.nu) K :=
  rowpe f.qq1 (solveM f.qq1 (solveM f.ee2 (DD2 d m o dt) * solveM f.ee1 (stackM d.s (B1 d m))
    + solveM f.ee2 (stackM d.s (B2 d m))))
/-- `ZZx`, sim_gnsf.c:948-956: triangular solves without permutation of the right hand side -/
def ZZx : Matrix (Z1 d) (Fin d.nx1) K :=
  trsm f.qq1 (solveM f.ee2 (DD2 d m o dt) * solveM f.ee1 (stackM d.s (A1 d m))
    + solveM f.ee2 (stackM d.s (A2 d m)))
/-- `ZZ0`, sim_gnsf.c:959-964 -/
def ZZ0 : Z1 d → K :=
  solveV f.qq1 (solveM f.ee2 (DD2 d m o dt) *ᵥ solveV f.ee1 (cc1 d m) + solveV f.ee2 (cc2 d m))
/-- `KKv`, sim_gnsf.c:967-968 -/
def KKv : Matrix (K1 d) (VV d) K := solveM f.ee1 (DD1 d m) * ZZv d m o dt f + solveM f.ee1 (CC1 d m)
/-- `KKu`, sim_gnsf.c:969-970 -/
def KKu : Matrix (K1 d) (Fin d.nu) K :=
  solveM f.ee1 (DD1 d m) * ZZu d m o dt f + solveM f.ee1 (stackM d.s (B1 d m))
/-- `KKx`, sim_gnsf.c:971-972 -/
def KKx : Matrix (K1 d) (Fin d.nx1) K :=
  solveM f.ee1 (DD1 d m) * ZZx d m o dt f + solveM f.ee1 (stackM d.s (A1 d m))
/-- `KK0`, sim_gnsf.c:973 -/
def KK0 : K1 d → K := solveM f.ee1 (DD1 d m) *ᵥ ZZ0 d m o dt f + solveV f.ee1 (cc1 d m)

/-- right hand side blocks copied below each other, then solved with `M2`, sim_gnsf.c:841, 1009-1011 -/
def dK2dx2 : Matrix (K2 d) (Fin d.nx2) K := solveM f.m2 (stackM d.s (ALO d m))
/-- sim_gnsf.c:1015-1022 -/
def dK2du : Matrix (K2 d) (Fin d.nu) K := solveM f.m2 (stackM d.s (BLO d m))

/-- `dx2f_dx2u`, sim_gnsf.c:1024-1032, columns of `x2`: the diagonal is set to one, the other entries
keep their previous content `w`, then `b_dt[ii]` times stage block `ii` (first `nx2` rows) is added -/
def dx2fdx2 (w : Matrix (Fin d.nx2) (Fin d.nx2) K) : Matrix (Fin d.nx2) (Fin d.nx2) K :=
  stages d.s (fun M ii => M + bdt o dt ii.val • (rowBlk ii (dK2dx2 d m f)).submatrix Sum.inl id)
    (Matrix.of fun r c => if r = c then 1 else w r c)
/-- `dx2f_dx2u`, sim_gnsf.c:1024-1032, columns of `u` -/
def dx2fdu (w : Matrix (Fin d.nx2) (Fin d.nu) K) : Matrix (Fin d.nx2) (Fin d.nu) K :=
  stages d.s (fun M ii => M + bdt o dt ii.val • (rowBlk ii (dK2du d m f)).submatrix Sum.inl id) w

/-- what memory and workspace hold when precompute starts and is not overwritten -/
structure Stale (d : Dims) (K : Type*) where
  llz : Matrix (YI d) (Z1 d) K
  dK2_du : Matrix (K2 d) (Fin d.nu) K
  x2f : Matrix (Fin d.nx2) (Fin d.nx2) K
  x2fu : Matrix (Fin d.nx2) (Fin d.nu) K

/-- `sim_gnsf_precompute`, sim_gnsf.c:618-1034 -/
def precompute (w : Stale d K) : Pre d K where
  KKv := KKv d m o dt f
  KKx := KKx d m o dt f
  KKu := KKu d m o dt f
  KK0 := KK0 d m o dt f
  ZZv := ZZv d m o dt f
  ZZx := ZZx d m o dt f
  ZZu := ZZu d m o dt f
  ZZ0 := ZZ0 d m o dt f
  -- sim_gnsf.c:976-992
  YYx := LLZ d m w.llz * ZZx d m o dt f + (LLK d m o dt * KKx d m o dt f + LLx d m)
  YYu := LLZ d m w.llz * ZZu d m o dt f + LLK d m o dt * KKu d m o dt f
  YYv := LLZ d m w.llz * ZZv d m o dt f + LLK d m o dt * KKv d m o dt f
  YY0 := LLZ d m w.llz *ᵥ ZZ0 d m o dt f + LLK d m o dt *ᵥ KK0 d m o dt f
  m2 := f.m2
  dK2_dx2 := dK2dx2 d m f
  dK2_du := if m.nontrivial_f_LO then w.dK2_du else dK2du d m f
  dx2f_dx2 := if m.nontrivial_f_LO then w.x2f else dx2fdx2 d m o dt f w.x2f
  dx2f_du := if m.nontrivial_f_LO then w.x2fu else dx2fdu d m o dt f w.x2fu
end Precompute

/-- external functions: nonlinearity `phi(y, uhat)` with its Jacobians, and the nonlinearity of the
linear output system `f_lo(x1, x1dot, z1, u)` with its Jacobians -/
structure Ext (d : Dims) (K : Type*) where
  phi : (Fin d.ny → K) → (Fin d.nuh → K) → Fin d.no → K
  phi_y : (Fin d.ny → K) → (Fin d.nuh → K) → Matrix (Fin d.no) (Fin d.ny) K
  phi_u : (Fin d.ny → K) → (Fin d.nuh → K) → Matrix (Fin d.no) (Fin d.nuh) K
  flo : (Fin d.nx1 → K) → (Fin d.nx1 → K) → (Fin d.nz1 → K) → (Fin d.nu → K) → XZ2 d → K
  flo_x : (Fin d.nx1 → K) → (Fin d.nx1 → K) → (Fin d.nz1 → K) → (Fin d.nu → K) →
    Matrix (XZ2 d) (Fin d.nx1) K
  flo_k : (Fin d.nx1 → K) → (Fin d.nx1 → K) → (Fin d.nz1 → K) → (Fin d.nu → K) →
    Matrix (XZ2 d) (Fin d.nx1) K
  flo_u : (Fin d.nx1 → K) → (Fin d.nx1 → K) → (Fin d.nz1 → K) → (Fin d.nu → K) →
    Matrix (XZ2 d) (Fin d.nu) K
  flo_z : (Fin d.nx1 → K) → (Fin d.nx1 → K) → (Fin d.nz1 → K) → (Fin d.nu → K) →
    Matrix (XZ2 d) (Fin d.nz1) K

/-- block `j` of a stage vector -/
abbrev blk {s : Nat} {μ : Type*} (v : Fin s × μ → K) (j : Fin s) : μ → K := fun r => v (j, r)

section Step
variable (d : Dims) (m : Mdl K) (o : Opts K) (dt : K) (p : Pre d K) (e : Ext d K)

/-- `uhat`, sim_gnsf.c:2498-2499 -/
def uhat (u : Fin d.nu → K) : Fin d.nuh → K := LuM d m *ᵥ u
/-- `yyss`, sim_gnsf.c:2493 and 2519 -/
def yyss (x1 : Fin d.nx1 → K) (u : Fin d.nu → K) : YI d → K := p.YYx *ᵥ x1 + (p.YYu *ᵥ u + p.YY0)
/-- `yy`, sim_gnsf.c:2526-2527 -/
def yy (x1 : Fin d.nx1 → K) (u : Fin d.nu → K) (v : VV d → K) : YI d → K :=
  p.YYv *ᵥ v + yyss d p x1 u

/-- `J_r_vv`, sim_gnsf.c:2532-2552 (and 2698-2727): unit matrix minus `dPHI_dy` of stage `ii` times row
block `ii` of `YYv` -/
def Jrvv (x1 : Fin d.nx1 → K) (u : Fin d.nu → K) (v : VV d → K) : Matrix (VV d) (VV d) K :=
  fun a b => (if a = b then 1 else 0) -
    (e.phi_y (blk (yy d p x1 u v) a.1) (uhat d m u) * rowBlk a.1 p.YYv) a.2 b

/-- `res_val` before the solve, sim_gnsf.c:2566-2570 -/
def res (x1 : Fin d.nx1 → K) (u : Fin d.nu → K) (v : VV d → K) : VV d → K :=
  fun a => - e.phi (blk (yy d p x1 u v) a.1) (uhat d m u) a.2 + v a

/-- Newton loop, sim_gnsf.c:2522-2598.  `g` is `dgetrf_rp`; `lu` the factorisation left from before
(used when `jac_reuse` is set and this is not the first iteration of the first step); the arguments are
the remaining number of iterations, whether this is the first iteration of the first step, the
factorisation and the current `vv`.  Result: `vv` and the factorisation. -/
def newton (g : Matrix (VV d) (VV d) K → Lu (VV d) K) (x1 : Fin d.nx1 → K) (u : Fin d.nu → K) :
    Nat → Bool → Lu (VV d) K → (VV d → K) → (VV d → K) × Lu (VV d) K
  | 0, _, lu, v => (v, lu)
  | n + 1, first, lu, v =>
    let lu' := if (o.jac_reuse && first) || !o.jac_reuse then g (Jrvv d m p e x1 u v) else lu
    let delta := solveV lu' (res d m p e x1 u v)
    let v' := v - delta
    if 0 < o.newton_tol ∧ ∀ a, |delta a| < o.newton_tol then (v', lu')
    else newton g x1 u n false lu' v'

/-- `K1_val`, sim_gnsf.c:2601-2605 -/
def K1val (x1 : Fin d.nx1 → K) (u : Fin d.nu → K) (v : VV d → K) : K1 d → K :=
  p.KKx *ᵥ x1 + (p.KKv *ᵥ v + (p.KKu *ᵥ u + p.KK0))
/-- `Z1_val`, sim_gnsf.c:2606-2612 -/
def Z1val (x1 : Fin d.nx1 → K) (u : Fin d.nu → K) (v : VV d → K) : Z1 d → K :=
  p.ZZx *ᵥ x1 + (p.ZZv *ᵥ v + (p.ZZu *ᵥ u + p.ZZ0))

/-- `x1_stage_val`, sim_gnsf.c:2614-2622 -/
def x1stage (x1 : Fin d.nx1 → K) (k : K1 d → K) : K1 d → K := fun a =>
  stages d.s (fun acc jj => acc + Adt o dt (a.1.val + d.s * jj.val) * k (jj, a.2)) (x1 a.2)

/-- right hand side and solve of the linear output system, sim_gnsf.c:2629-2673 (and 2500-2502) -/
def K2val (x1 : Fin d.nx1 → K) (x2 : Fin d.nx2 → K) (u : Fin d.nu → K) (k : K1 d → K) (z : Z1 d → K) :
    K2 d → K :=
  let alox : XZ2 d → K := ALO d m *ᵥ x2 + (BLO d m *ᵥ u + fun r => m.c_LO (pos2 d r))
  let xs := x1stage d o dt x1 k
  let rhs : K2 d → K :=
    if m.nontrivial_f_LO then fun a => - e.flo (blk xs a.1) (blk k a.1) (blk z a.1) u a.2 - alox a.2
    else fun a => - alox a.2
  fun a => - solveV p.m2 rhs a

/-- one integration step given the converged `vv`, sim_gnsf.c:2600-2684 -/
def stepX1 (x1 : Fin d.nx1 → K) (k : K1 d → K) : Fin d.nx1 → K := fun r =>
  stages d.s (fun acc ii => acc + bdt o dt ii.val * k (ii, r)) (x1 r)
/-- sim_gnsf.c:2681-2682: only the first `nx2` rows of each stage block enter -/
def stepX2 (x2 : Fin d.nx2 → K) (k2 : K2 d → K) : Fin d.nx2 → K := fun r =>
  stages d.s (fun acc ii => acc + bdt o dt ii.val * k2 (ii, Sum.inl r)) (x2 r)

/-- trajectory of one step: lifted variable, stage derivatives, next state -/
structure StepOut (d : Dims) (K : Type*) where
  v : VV d → K
  k1 : K1 d → K
  z1 : Z1 d → K
  k2 : K2 d → K
  x1 : Fin d.nx1 → K
  x2 : Fin d.nx2 → K
  lu : Lu (VV d) K

/-- one pass of the step loop, sim_gnsf.c:2508-2684.  When `nx1 = nz1 = 0` the C code skips the Newton
iteration; here it runs and has no influence on `x2` beyond the (empty) arguments of `f_lo`. -/
def step (g : Matrix (VV d) (VV d) K → Lu (VV d) K) (first : Bool) (lu : Lu (VV d) K) (v0 : VV d → K)
    (x1 : Fin d.nx1 → K) (x2 : Fin d.nx2 → K) (u : Fin d.nu → K) : StepOut d K :=
  let nv := newton d m o p e g x1 u o.newton_iter first lu v0
  let k := K1val d p x1 u nv.1
  let z := Z1val d p x1 u nv.1
  let k2 := K2val d m o dt p e x1 x2 u k z
  { v := nv.1, k1 := k, z1 := z, k2 := k2
    x1 := stepX1 d o dt x1 k, x2 := stepX2 d o dt x2 k2, lu := nv.2 }

/-- step loop, sim_gnsf.c:2508-2845: all steps, the lifted variable initialised from the previous step;
result is the list of the steps taken.  `sens` is `opts->sens_forw`: then the factorisation left for the
next step is the one computed for the sensitivities, sim_gnsf.c:2722. -/
def simulate (g : Matrix (VV d) (VV d) K → Lu (VV d) K) (sens : Bool) (u : Fin d.nu → K) :
    Nat → Bool → Lu (VV d) K → (VV d → K) → (Fin d.nx1 → K) → (Fin d.nx2 → K) → List (StepOut d K)
  | 0, _, _, _, _, _ => []
  | n + 1, first, lu, v0, x1, x2 =>
    let s := step d m o dt p e g first lu v0 x1 x2 u
    let lu' := if sens then g (Jrvv d m p e x1 u s.v) else s.lu
    s :: simulate g sens u n false lu' s.v s.x1 s.x2
end Step

end Acados.Gnsf
