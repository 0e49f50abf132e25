import Verif.Model.Num
import Mathlib.Algebra.BigOperators.Group.Finset.Basic
import Mathlib.Algebra.BigOperators.Ring.Finset
/-!
# Stage constraints (`acados/ocp_nlp/ocp_nlp_constraints_bgh.c`, `ocp_nlp_constraints_bgp.c`)

Bounds on `u` and `x`, general linear constraints and nonlinear constraints, all two-sided, any of
them softened by slacks.  The two C modules have the same data layout; `nh` below is `nh` (bgh) or
`nphi` (bgp).  Arrays are functions `Nat → _`, written on an index window; that the windows lie
inside the allocated arrays is a theorem (`C03_writes_in_bounds`).  Null-pointer checks and
pointers to external functions are left out; the external functions are oracles.
-/
namespace Acados.Bgh
open Finset

/-- `ocp_nlp_constraints_bgh_dims` (bgh.h); `nb`, `ns_derived` as kept by `bgh_dims_update_nb`,
`bgh_dims_update_ns` (bgh.c:92-100) -/
structure Dims where
  nx : Nat
  nu : Nat
  nz : Nat
  nbx : Nat
  nbu : Nat
  ng : Nat
  nh : Nat
  ns : Nat
  nsbu : Nat
  nsbx : Nat
  nsg : Nat
  nsh : Nat
  nbxe : Nat
  nbue : Nat
  nge : Nat
  nhe : Nat
  deriving DecidableEq, Repr

def Dims.nb (d : Dims) : Nat := d.nbu + d.nbx
def Dims.nsDerived (d : Dims) : Nat := d.nsbu + d.nsbx + d.nsg + d.nsh
/-- number of two-sided constraints `nb+ng+nh` -/
def Dims.ni (d : Dims) : Nat := d.nb + d.ng + d.nh

/-- `ocp_nlp_constraints_bgh_model`; `dmask` is the vector in `ocp_nlp_in` it points to. -/
structure Model (D : Type*) where
  idxb : Nat → Int
  idxs : Nat → Int
  idxsRev : Nat → Int
  idxe : Nat → Int
  d : Nat → D
  dmask : Nat → D
  DCt : Nat → Nat → D
  useIdxsRev : Bool

/-- the vector fields of `model_set` -/
inductive VF where
  | lbu | lbx | lg | lh | ubu | ubx | ug | uh
  | lsbu | lsbx | lsg | lsh | usbu | usbx | usg | ush | ls | us
  deriving DecidableEq, Repr

/-- the integer fields of `model_set` (without `idxs_rev`) -/
inductive IF where
  | idxbu | idxbx | idxsbu | idxsbx | idxsg | idxsh | idxbue | idxbxe | idxge | idxhe
  deriving DecidableEq, Repr

/-- one call of `ocp_nlp_constraints_bgh_model_set` -/
inductive Write (D : Type*) where
  | vec (f : VF) (v : Nat → D)
  | int (f : IF) (v : Nat → Int)
  | idxsRev (v : Nat → Int)
  | C (v : Nat → Nat → D)
  | D (v : Nat → Nat → D)

/-- the `offset` of each vector field in `model->d`, bgh.c:443-610 / bgp.c (same) -/
def VF.off (d : Dims) : VF → Nat
  | .lbx => d.nbu
  | .ubx => d.nb + d.ng + d.nh + d.nbu
  | .lbu => 0
  | .ubu => d.nb + d.ng + d.nh
  | .lg => d.nb
  | .ug => 2*d.nb+d.ng+d.nh
  | .lh => d.nb+d.ng
  | .uh => 2*d.nb+2*d.ng+d.nh
  | .ls => 2*d.nb+2*d.ng+2*d.nh
  | .us => 2*d.nb+2*d.ng+2*d.nh+d.ns
  | .lsbu => 2*d.nb+2*d.ng+2*d.nh
  | .usbu => 2*d.nb+2*d.ng+2*d.nh+d.ns
  | .lsbx => 2*d.nb+2*d.ng+2*d.nh+d.nsbu
  | .usbx => 2*d.nb+2*d.ng+2*d.nh+d.ns+d.nsbu
  | .lsg => 2*d.nb+2*d.ng+2*d.nh+d.nsbu+d.nsbx
  | .usg => 2*d.nb+2*d.ng+2*d.nh+d.ns+d.nsbu+d.nsbx
  | .lsh => 2*d.nb+2*d.ng+2*d.nh+d.nsbu+d.nsbx+d.nsg
  | .ush => 2*d.nb+2*d.ng+2*d.nh+d.ns+d.nsbu+d.nsbx+d.nsg

/-- number of entries copied by each vector field, bgh.c:443-610 -/
def VF.len (d : Dims) : VF → Nat
  | .lbx | .ubx => d.nbx
  | .lbu | .ubu => d.nbu
  | .lg | .ug => d.ng
  | .lh | .uh => d.nh
  | .ls | .us => d.ns
  | .lsbu | .usbu => d.nsbu
  | .lsbx | .usbx => d.nsbx
  | .lsg | .usg => d.nsg
  | .lsh | .ush => d.nsh

/-- which mask function is called: `update_mask_upper` for the upper bounds, `update_mask_lower` for
all others, including the upper slacks (bgh.c:443-610) -/
def VF.upper : VF → Bool
  | .ubu | .ubx | .ug | .uh => true
  | _ => false

section
variable {D : Type*}

/-- `blasfeo_pack_dvec(n, v, 1, &d, off)` (BLASFEO, trusted) -/
def packVec {T : Type*} (n : Nat) (v : Nat → T) (d : Nat → T) (off : Nat) : Nat → T :=
  fun i => if off ≤ i ∧ i < off + n then v (i - off) else d i

variable [LE D] [DecidableLE D] [NatCast D] [Neg D]

/-- `ACADOS_INFTY`, acados/utils/types.h: 1e10 -/
def infty : D := ((10000000000 : Nat) : D)

/-- `update_mask_lower`, bgh.c:388-397, bgp.c (same) -/
def updateMaskLower (d mask : Nat → D) (size off : Nat) : Nat → D :=
  fun i => if off ≤ i ∧ i < off + size then
    (if d i ≤ -infty then ((0 : Nat) : D) else ((1 : Nat) : D)) else mask i

/-- `update_mask_upper`, bgh.c:400-409 -/
def updateMaskUpper (d mask : Nat → D) (size off : Nat) : Nat → D :=
  fun i => if off ≤ i ∧ i < off + size then
    (if infty ≤ d i then ((0 : Nat) : D) else ((1 : Nat) : D)) else mask i

/-- one vector field: pack, then mask update -/
def setVec (dm : Dims) (m : Model D) (f : VF) (v : Nat → D) : Model D :=
  { m with
    d := packVec (f.len dm) v m.d (f.off dm)
    dmask :=
      if f.upper then updateMaskUpper (packVec (f.len dm) v m.d (f.off dm)) m.dmask (f.len dm) (f.off dm)
      else updateMaskLower (packVec (f.len dm) v m.d (f.off dm)) m.dmask (f.len dm) (f.off dm) }

/-- the integer fields, bgh.c:437-442, 458-463, 536-541, 554-559, 572-577, 590-595, 609-633 -/
def setInt (dm : Dims) (m : Model D) (f : IF) (v : Nat → Int) : Model D :=
  match f with
  | .idxbx => { m with idxb := packVec dm.nbx (fun i => dm.nu + v i) m.idxb dm.nbu }
  | .idxbu => { m with idxb := packVec dm.nbu v m.idxb 0 }
  | .idxsbu => { m with idxs := packVec dm.nsbu v m.idxs 0 }
  | .idxsbx => { m with idxs := packVec dm.nsbx (fun i => dm.nbu + v i) m.idxs dm.nsbu }
  | .idxsg => { m with idxs := packVec dm.nsg (fun i => dm.nbu + dm.nbx + v i) m.idxs (dm.nsbu+dm.nsbx) }
  | .idxsh => { m with idxs := packVec dm.nsh (fun i => dm.nbu + dm.nbx + dm.ng + v i) m.idxs
                                (dm.nsbu+dm.nsbx+dm.nsg) }
  | .idxbue => { m with idxe := packVec dm.nbue v m.idxe 0 }
  | .idxbxe => { m with idxe := packVec dm.nbxe (fun i => dm.nbu + v i) m.idxe dm.nbue }
  | .idxge => { m with idxe := packVec dm.nge (fun i => dm.nbu + dm.nbx + v i) m.idxe (dm.nbue+dm.nbxe) }
  | .idxhe => { m with idxe := packVec dm.nhe (fun i => dm.nbu + dm.nbx + dm.ng + v i) m.idxe
                                (dm.nbue+dm.nbxe+dm.nge) }

/-- `blasfeo_pack_tran_dmat(ng, n, value, ng, &DCt, row0, 0)`: entry `(j, i)` of the column-major
`ng × n` argument goes to `DCt[row0 + i, j]` (BLASFEO, trusted) -/
def packTran (ng n : Nat) (v : Nat → Nat → D) (A : Nat → Nat → D) (row0 : Nat) : Nat → Nat → D :=
  fun r c => if row0 ≤ r ∧ r < row0 + n ∧ c < ng then v c (r - row0) else A r c

/-- `ocp_nlp_constraints_bgh_model_set`, bgh.c:412-664 (bgp.c: same cases) -/
def set (dm : Dims) (m : Model D) : Write D → Model D
  | .vec f v => setVec dm m f v
  | .int f v => setInt dm m f v
  | .idxsRev v => { m with idxsRev := packVec (dm.nb + dm.ng + dm.nh) v m.idxsRev 0, useIdxsRev := true }
  | .C v => { m with DCt := packTran dm.ng dm.nx v m.DCt dm.nu }
  | .D v => { m with DCt := packTran dm.ng dm.nu v m.DCt 0 }

/-- a history of calls -/
def setAll (dm : Dims) (m : Model D) (ws : List (Write D)) : Model D := ws.foldl (set dm) m

/-- the model after `model_assign` (bgh.c:323-385) and `ocp_nlp_in_assign` (ocp_nlp_common.c:936):
`d = 0`, mask all one, `idxe = 0`, `use_idxs_rev = 0` (not assigned in bgp.c: zero because `ocp_nlp_in_create`,
ocp_nlp_interface.c:417, uses `calloc`); everything else is whatever was in the buffer -/
def Model.Fresh (m : Model D) : Prop :=
  (∀ i, m.d i = ((0 : Nat) : D)) ∧ (∀ i, m.dmask i = ((1 : Nat) : D)) ∧ (∀ i, m.idxe i = 0) ∧
  m.useIdxsRev = false

/-- the vector fields of `model_get`, bgh.c:704-743; `none`: field not available, `exit(1)` -/
def getVec (dm : Dims) (m : Model D) : VF → Option (Nat → D)
  | .lbx => some fun i => m.d (dm.nbu + i)
  | .ubx => some fun i => m.d (dm.nb + dm.ng + dm.nh + dm.nbu + i)
  | .lbu => some fun i => m.d (0 + i)
  | .ubu => some fun i => m.d (dm.nb + dm.ng + dm.nh + i)
  | .lg => some fun i => m.d (dm.nb + i)
  | .ug => some fun i => m.d (dm.nb + dm.ng + dm.nh + dm.nb + i)
  | .lh => some fun i => m.d (dm.nb + dm.ng + i)
  | .uh => some fun i => m.d (dm.nb + dm.ng + dm.nh + dm.nb + dm.ng + i)
  | _ => none

/-- `model_get` of `idxbx`, `idxbu`, `idxs`, bgh.c:698-703, 714-719, 759-765 -/
def getIdxbx (dm : Dims) (m : Model D) (i : Nat) : Int := m.idxb (i + dm.nbu) - dm.nu
def getIdxbu (m : Model D) (i : Nat) : Int := m.idxb i
def getIdxs (m : Model D) (i : Nat) : Int := m.idxs i

/-- `model_get` of `C`, `D` (`unpack_tran`: entry `(j, i)`) and `Ct`, `Dt` (entry `(i, j)`),
bgh.c:744-758 -/
def getC (dm : Dims) (m : Model D) (j i : Nat) : D := m.DCt (dm.nu + i) j
def getD (m : Model D) (j i : Nat) : D := m.DCt i j
def getCt (dm : Dims) (m : Model D) (i j : Nat) : D := m.DCt (dm.nu + i) j
def getDt (m : Model D) (i j : Nat) : D := m.DCt i j

end

section
variable {D : Type*} [Mul D]

/-- `ocp_nlp_constraints_model_set`, ocp_nlp_interface.c:531-544: after the write the multipliers
stored in the output object are multiplied by the mask -/
def setAndMaskLam [LE D] [DecidableLE D] [NatCast D] [Neg D] (dm : Dims) (s : Model D × (Nat → D))
    (w : Write D) : Model D × (Nat → D) :=
  (set dm s.1 w,
   fun i => if i < 2 * (dm.ni + dm.ns) then (set dm s.1 w).dmask i * s.2 i else s.2 i)
end

/-! ## Evaluation -/

/-- memory of the module that survives between calls: `memory->DCt` (in `qp_in`), `idxb`, `idxs_rev`,
`idxe` (in `qp_in`) -/
structure Memory (K : Type*) where
  idxb : Nat → Int
  idxsRev : Nat → Int
  idxe : Nat → Int
  DCt : Nat → Nat → K

/-- the loop `for (j = 0; j < ns; j++) memory->idxs_rev[model->idxs[j]] = j;` bgh.c:1254-1257 -/
def scatter (idxs : Nat → Int) : Nat → (Nat → Int) → (Nat → Int)
  | 0, a => a
  | n + 1, a =>
    let b := scatter idxs n a
    fun i => if (i : Int) = idxs n then (n : Int) else b i

/-- `ocp_nlp_constraints_bgh_initialize`, bgh.c:1216-1270 (bgp.c:1127-1181) -/
def initMem {K : Type*} (dm : Dims) (m : Model K) (mem : Memory K) : Memory K where
  idxb := fun j => if j < dm.nb then m.idxb j else mem.idxb j
  idxsRev :=
    if m.useIdxsRev then fun j => if j < dm.nb + dm.ng + dm.nh then m.idxsRev j else mem.idxsRev j
    else scatter m.idxs dm.ns mem.idxsRev
  idxe := fun j => if j < dm.nbue + dm.nbxe + dm.nge + dm.nhe then m.idxe j else mem.idxe j
  DCt := fun r c => if r < dm.nu + dm.nx ∧ c < dm.ng then m.DCt r c else mem.DCt r c

section
variable {K : Type*} [Field K]

/-- `blasfeo_dvecad_sp(n, alpha, x, xi, idx, z, zi)`: `z[zi+idx[k]] += alpha*x[xi+k]` for `k < n`
(BLASFEO, trusted) -/
def vecadSp (n : Nat) (alpha : K) (x : Nat → K) (idx : Nat → Int) (z : Nat → K) (zi : Nat) : Nat → K :=
  fun i => z i + ∑ k ∈ range n, if (i : Int) = zi + idx k then alpha * x k else 0

/-- entry of the primal vector at a (signed) position; positions outside are never used for valid
index maps -/
def at' (x : Nat → K) (i : Int) : K := x i.toNat

/-- `constr_eval_no_bounds`: bgh.c:1301-1305 (box by `dvecex_sp`, general linear by `dgemv_t`), then
the nonlinear part written by the external function at offset `nb+ng` -/
def constrEval (dm : Dims) (m : Model K) (DCt : Nat → Nat → K) (h : Nat → K) (ux : Nat → K) : Nat → K :=
  fun i =>
    if i < dm.nb then at' ux (m.idxb i)
    else if i < dm.nb + dm.ng then ∑ r ∈ range (dm.nu + dm.nx), DCt r (i - dm.nb) * ux r
    else h (i - (dm.nb + dm.ng))

/-- the slack subtraction of `update_qp_vectors` / `compute_fun`, bgh.c:1644-1662, 1584-1603:
`fun` restricted to the `2*(nb+ng+nh)` two-sided rows -/
def subSlacks (dm : Dims) (m : Model K) (rev : Nat → Int) (ux : Nat → K) (f : Nat → K) : Nat → K :=
  if m.useIdxsRev then fun i =>
    if i < dm.ni then (if 0 ≤ rev i then f i - at' ux (dm.nu + dm.nx + rev i) else f i)
    else if i < 2 * dm.ni then
      (if 0 ≤ rev (i - dm.ni) then f i - at' ux (dm.nu + dm.nx + dm.ns + rev (i - dm.ni)) else f i)
    else f i
  else
    vecadSp dm.ns (-1) (fun k => ux (dm.nu + dm.nx + dm.ns + k)) m.idxs
      (vecadSp dm.ns (-1) (fun k => ux (dm.nu + dm.nx + k)) m.idxs f 0) dm.ni

/-- `fun` from constraint values `c`: bgh.c:1638-1670 (`update_qp_vectors`) and, line by line the
same, bgh.c:1577-1611 (`compute_fun`).  Over an ordered field; masking multiplies by `dmask`. -/
def funOf (dm : Dims) (m : Model K) (rev : Nat → Int) (ux c : Nat → K) : Nat → K :=
  let f0 : Nat → K := fun i =>
    if i < dm.ni then m.d i - c i else c (i - dm.ni) - m.d i
  let f1 := subSlacks dm m rev ux f0
  fun i =>
    (if i < 2 * dm.ni then f1 i else m.d i - ux (dm.nu + dm.nx + (i - 2 * dm.ni))) * m.dmask i

/-- `fun` of the bgp version of `compute_fun`, bgp.c:1437-1466: the mask is applied to the first `2*(nb+ng+nphi)` rows
only, not to the rows of the slack bounds (`update_qp_vectors`, bgp.c:1528, masks all rows) -/
def funOfBgp (dm : Dims) (m : Model K) (rev : Nat → Int) (ux c : Nat → K) : Nat → K := fun i =>
  if i < 2 * dm.ni then funOf dm m rev ux c i else m.d i - ux (dm.nu + dm.nx + (i - 2 * dm.ni))

/-- the lower row of an unsoftened constraint in floating point: `d - value`, then times the mask -/
def rowLower {D : Type*} [Sub D] [Mul D] (d value mask : D) : D := (d - value) * mask

/-- the check of `ocp_nlp_constraints_bgh_precompute`, bgh.c:1676-1700 (`exit(1)` when it fails) -/
def PrecomputeOk {D : Type*} (dm : Dims) (m : Model D) : Prop :=
  if m.useIdxsRev then dm.nsDerived = 0 else dm.nsDerived = dm.ns

/-- outputs of the linearising external function `nl_constr_h_fun_jac` at the current point -/
structure HOut (K : Type*) where
  h : Nat → K
  /-- transposed Jacobian w.r.t. `(u, x)`, entry `(row ux, column h)` -/
  jacUxT : Nat → Nat → K
  /-- transposed Jacobian w.r.t. `z` -/
  jacZT : Nat → Nat → K

/-- `tmp_nv_nh = dzduxt * jac_z_tran`, bgh.c:1400-1401, 1436-1437 -/
def chain (dm : Dims) (dzduxt : Nat → Nat → K) (o : HOut K) : Nat → Nat → K :=
  fun r j => ∑ k ∈ range dm.nz, dzduxt r k * o.jacZT k j

/-- `blasfeo_dgead(m, n, 1.0, A, 0, 0, B, bi, bj)` (BLASFEO, trusted) -/
def gead (m n : Nat) (A B : Nat → Nat → K) (bi bj : Nat) : Nat → Nat → K :=
  fun r c => if bi ≤ r ∧ r < bi + m ∧ bj ≤ c ∧ c < bj + n then B r c + A (r - bi) (c - bj) else B r c

/-- the matrix `memory->DCt` after `update_qp_matrices` with `nh > 0`: the external function writes its
Jacobian into columns `ng..` (bgh.c:1327-1330), then `dgead(nu+nx, nh, 1.0, tmp_nv_nh, 0, 0, DCt, ng, 0)`
(bgh.c:1403, 1439; bgp.c:1296).  For `nh = 0` nothing happens. -/
def updateDCt (dm : Dims) (dzduxt : Nat → Nat → K) (o : HOut K) (DCt : Nat → Nat → K) : Nat → Nat → K :=
  if dm.nh = 0 then DCt else
  gead (dm.nu + dm.nx) dm.nh (chain dm dzduxt o)
    (fun r c => if r < dm.nu + dm.nx ∧ dm.ng ≤ c ∧ c < dm.ng + dm.nh then o.jacUxT r (c - dm.ng)
      else DCt r c) dm.ng 0

/-- the part of `memory->adj` for the slacks that comes from the softened rows: bgh.c:1463-1483,
bgp.c:1323-1343 (`idxs_rev` loop, or two `dvecex_sp`) -/
def adjSoft (dm : Dims) (m : Model K) (rev : Nat → Int) (lam : Nat → K) : Nat → K := fun r =>
  if m.useIdxsRev then
    (if r < dm.nu + dm.nx + dm.ns then
      ∑ i ∈ range dm.ni, if 0 ≤ rev i ∧ (r : Int) = dm.nu + dm.nx + rev i then lam i else 0
    else
      ∑ i ∈ range dm.ni, if 0 ≤ rev i ∧ (r : Int) = dm.nu + dm.nx + dm.ns + rev i then
        lam (dm.ni + i) else 0)
  else
    (if r < dm.nu + dm.nx + dm.ns then at' lam (m.idxs (r - (dm.nu + dm.nx)))
     else at' lam (dm.ni + m.idxs (r - (dm.nu + dm.nx + dm.ns))))

/-- the part of `memory->adj` for `(u, x)`: bgh.c:1454-1461 (`tmp_ni = lam_lower - lam_upper`, scattered
by `idxb`, plus `DCt * tmp_ni[nb:]`) -/
def adjUx (dm : Dims) (m : Model K) (DCt : Nat → Nat → K) (lam : Nat → K) : Nat → K := fun r =>
  (∑ i ∈ range dm.nb, if (r : Int) = m.idxb i then lam i - lam (dm.ni + i) else 0) +
  ∑ j ∈ range (dm.ng + dm.nh), DCt r j * (lam (dm.nb + j) - lam (dm.ni + (dm.nb + j)))

/-- `memory->adj`, bgh.c:1451-1487.  `lam` is the multiplier vector of the stage. -/
def adj (dm : Dims) (m : Model K) (rev : Nat → Int) (DCt : Nat → Nat → K) (lam : Nat → K) : Nat → K :=
  fun r =>
    if r < dm.nu + dm.nx then adjUx dm m DCt lam r
    else adjSoft dm m rev lam r + lam (2 * dm.ni + (r - (dm.nu + dm.nx)))

/-- the bgp version, bgp.c:1316-1347: the multipliers of the slack bounds are added inside the `else`
branch (no `idxs_rev`) only -/
def adjBgp (dm : Dims) (m : Model K) (rev : Nat → Int) (DCt : Nat → Nat → K) (lam : Nat → K) : Nat → K :=
  fun r =>
    if r < dm.nu + dm.nx then adjUx dm m DCt lam r
    else if m.useIdxsRev then adjSoft dm m rev lam r
    else adjSoft dm m rev lam r + lam (2 * dm.ni + (r - (dm.nu + dm.nx)))

end

/-! ## Solves interleaved with writes -/

/-- what a user does between two solves: write a field, or solve (every solve calls `initialize`) -/
inductive Act (K : Type*) where
  | write (w : Write K)
  | solve

/-- model and memory along a history -/
def act {K : Type*} [LE K] [DecidableLE K] [NatCast K] [Neg K] (dm : Dims)
    (s : Model K × Memory K) : Act K → Model K × Memory K
  | .write w => (set dm s.1 w, s.2)
  | .solve => (s.1, initMem dm s.1 s.2)

def acts {K : Type*} [LE K] [DecidableLE K] [NatCast K] [Neg K] (dm : Dims)
    (s : Model K × Memory K) (as : List (Act K)) : Model K × Memory K := as.foldl (act dm) s

end Acados.Bgh
