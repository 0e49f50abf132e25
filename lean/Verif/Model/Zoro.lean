import Mathlib.Data.Matrix.Mul
import Mathlib.Data.Fin.VecNotation
import Mathlib.Algebra.Order.Field.Basic
/-!
# Zero-order robust optimisation update

`interfaces/acados_template/acados_template/custom_update_templates/custom_update_function_zoro_template.in.c`
(below `zoro.in.c`) and the description it is rendered with, `zoro_description.py`.  The template is modelled
after rendering: the entries of `zoro_description` are the fields of `Desc`, and a template condition is a test
of such a field.  Matrices are Mathlib matrices of the dimensions the C structs are created with.  The flat
vector `ineq_backoff_sq_buffer[k]` and the bound arrays are functions on the rows `bu`, `bx`, `g`, `h`.
`sqrt` is a parameter.  Timings, printing, and the assignment of the raw memory are left out; the memory comes
from `calloc`, so that what is not written is zero (line 528).
-/
namespace Acados.Zoro
open Matrix

/-- dimensions rendered into the template (`dims.*`, `zoro_description.nw`) -/
structure Dims where
  N : Nat
  nx : Nat
  nu : Nat
  nw : Nat
  np : Nat
  nbu : Nat
  nbx : Nat
  ng : Nat
  nh : Nat
  nbxe : Nat
  nge : Nat
  nhe : Nat

abbrev Mat (K : Type*) (m n : Nat) := Matrix (Fin m) (Fin n) K

inductive Kind | bu | bx | g | h
deriving DecidableEq

/-- inequality rows of a stage before the last; layout of `ineq_backoff_sq_buffer[ii]`, zoro.in.c 1344, 1462,
1510, 1553 -/
inductive Row (d : Dims)
  | bu (i : Fin d.nbu)
  | bx (i : Fin d.nbx)
  | g (i : Fin d.ng)
  | h (i : Fin d.nh)
deriving DecidableEq

def Row.kind {d : Dims} : Row d → Kind
  | .bu _ => .bu
  | .bx _ => .bx
  | .g _ => .g
  | .h _ => .h

/-- inequality rows of the last stage; layout of `ineq_backoff_sq_buffer[N]`, zoro.in.c 1669, 1697, 1729 -/
inductive RowE (d : Dims)
  | bx (i : Fin d.nbxe)
  | g (i : Fin d.nge)
  | h (i : Fin d.nhe)
deriving DecidableEq

def RowE.kind {d : Dims} : RowE d → Kind
  | .bx _ => .bx
  | .g _ => .g
  | .h _ => .h

/-- `nonlinear_uncertainty_mode` -/
inductive Mode | none | noise | constant
deriving DecidableEq

/-- `ZoroDescription`, zoro_description.py 40-177.  `barrier`: `feedback_optimization_mode` is one of the two
barrier modes; `eps`: `backoff_eps` (zoro.in.c 1327); `sensP`: `code_gen_options.sens_forw_p`. -/
structure Desc (K : Type*) (d : Dims) where
  gamma : K
  eps : K
  barrier : Bool
  mode : Mode
  sensP : Bool
  P0 : Mat K d.nx d.nx
  W : Mat K d.nw d.nw
  G : Mat K d.nx d.nw
  Sigma : Mat K d.np d.np
  Kfb : Mat K d.nu d.nx
  loT : List (Row d)
  hiT : List (Row d)
  loTE : List (RowE d)
  hiTE : List (RowE d)
  inP0diag : Bool
  inP0 : Bool
  inWdiag : Bool
  inWadd : Bool
  inSdiag : Bool
  inS : Bool
  outP : Bool
  outT : Bool

/-- what the update reads from and writes to the NLP through `ocp_nlp_constraints_model_get/set`.  The bounds
of stage 0 other than those on `u` are never touched. -/
structure Nlp (K : Type*) (d : Dims) where
  idxbu : Fin d.nbu → Fin d.nu
  idxbx : Fin d.nbx → Fin d.nx
  idxbxe : Fin d.nbxe → Fin d.nx
  Cg : Mat K d.ng d.nx
  Dg : Mat K d.ng d.nu
  Cge : Mat K d.nge d.nx
  lo : Nat → Row d → K
  hi : Nat → Row d → K
  loE : RowE d → K
  hiE : RowE d → K

/-- the linearisation read through `ocp_nlp_get_at_stage`: "A", "B", "S_p", "C", "D" -/
structure Lin (K : Type*) (d : Dims) where
  A : Nat → Mat K d.nx d.nx
  B : Nat → Mat K d.nx d.nu
  Sp : Nat → Mat K d.nx d.np
  C : Nat → Mat K (d.ng + d.nh) d.nx
  D : Nat → Mat K (d.ng + d.nh) d.nu
  Ce : Mat K (d.nge + d.nhe) d.nx

/-- `custom_memory`, zoro.in.c 51-208: `P` is `uncertainty_matrix_buffer`, `Wst` is `W_stage_mat`, `lo`.. the
arrays `d_l*`, `d_u*`, `loT`.. the arrays `d_l*_tightened`, `d_u*_tightened`, `bsq` the `ineq_backoff_sq_buffer` -/
structure Mem (K : Type*) (d : Dims) where
  P : Nat → Mat K d.nx d.nx
  W : Mat K d.nw d.nw
  GWG : Mat K d.nx d.nx
  Wst : Mat K d.nw d.nw
  Sigma : Mat K d.np d.np
  Pi : Mat K d.nx d.np
  Pw : Mat K d.nx d.nx
  idxbu : Fin d.nbu → Fin d.nu
  idxbx : Fin d.nbx → Fin d.nx
  idxbxe : Fin d.nbxe → Fin d.nx
  Cg : Mat K d.ng d.nx
  Dg : Mat K d.ng d.nu
  Cge : Mat K d.nge d.nx
  lo : Row d → K
  hi : Row d → K
  loE : RowE d → K
  hiE : RowE d → K
  loT : Row d → K
  hiT : Row d → K
  loTE : RowE d → K
  hiTE : RowE d → K
  bsq : Nat → Row d → K
  bsqE : RowE d → K

variable {K : Type*} [Field K] [LinearOrder K] {d : Dims}

/-- the two `blasfeo_dgemm` calls for `G W G^T`, zoro.in.c 622-629, 907-913, 1808-1816 -/
def gwg (G : Mat K d.nx d.nw) (W : Mat K d.nw d.nw) : Mat K d.nx d.nx := (G * W) * Gᵀ

/-- `custom_val_init_function`, zoro.in.c 537-755, for `N >= 2` (with `N = 1` stage 1 is the terminal stage and
lines 556-572 read the terminal fields into the arrays of the path).  `bsq0` is the fill of the back-off buffer:
1e-4 for the Riccati modes (749-753), otherwise 0. -/
def init (ds : Desc K d) (n : Nlp K d) (bsq0 : K) : Mem K d where
  P := fun k => if k = 0 then ds.P0 else 0
  W := ds.W
  GWG := if ds.inWdiag then 0 else gwg ds.G ds.W
  Wst := 0
  Sigma := if ds.sensP && ds.mode ≠ .none then ds.Sigma else 0
  Pi := 0
  Pw := 0
  idxbu := n.idxbu
  idxbx := n.idxbx
  idxbxe := n.idxbxe
  Cg := n.Cg
  Dg := n.Dg
  Cge := n.Cge
  lo := n.lo 1
  hi := n.hi 1
  loE := n.loE
  hiE := n.hiE
  loT := n.lo 1
  hiT := n.hi 1
  loTE := n.loE
  hiTE := n.hiE
  bsq := fun _ _ => bsq0
  bsqE := fun _ => bsq0

/-- `offset_W_diag`, zoro.in.c 486-491 -/
def offW (ds : Desc K d) : Nat := if ds.inP0diag then d.nx else if ds.inP0 then d.nx * d.nx else 0
/-- `offset_W_add_diag`, zoro.in.c 493-496 -/
def offWadd (ds : Desc K d) : Nat := offW ds + if ds.inWdiag then d.nw else 0
/-- `offset_Sigma_p`, zoro.in.c 498-501 -/
def offS (ds : Desc K d) : Nat := offWadd ds + if ds.inWadd then d.N * d.nw else 0
/-- `offset_P_out`, zoro.in.c 503-508 -/
def offP (ds : Desc K d) : Nat :=
  offS ds + if ds.inSdiag then d.np else if ds.inS then d.np * d.np else 0

/-- `data_size`, `make_consistent`, zoro_description.py 247-294 -/
def dataSize (ds : Desc K d) : Nat :=
  let s := 0
  let s := if ds.inP0diag then s + d.nx else s
  let s := if ds.inP0 then s + d.nx ^ 2 else s
  let s := if ds.inWdiag then s + d.nw else s
  let s := if ds.inWadd then s + d.N * d.nw else s
  let s := if ds.inSdiag && 0 < d.np then s + d.np else s
  let s := if ds.inS && 0 < d.np then s + d.np * d.np else s
  let s := if ds.outP then s + d.nx * d.nx * (d.N + 1) else s
  if ds.outT then s + 1 else s

/-- the flag `streaming`, zoro.in.c 1776-1795; `none`: the function returns 1.  A null pointer is the empty
list. -/
def streaming (ds : Desc K d) (data : List K) : Option Bool :=
  if 0 < dataSize ds then
    if data.length = 0 then some false
    else if data.length ≠ dataSize ds then none
    else some true
  else some false

/-- `blasfeo_dgein1` -/
def put {m n : Nat} (v : K) (M : Mat K m n) (i : Fin m) (j : Fin n) : Mat K m n := fun a b =>
  if a = i ∧ b = j then v else M a b

/-- the loops over diagonal entries that skip the negative ones, zoro.in.c 842-851, 869-877, 928-936 -/
def setDiag {n : Nat} (off : Nat) (data : List K) (M : Mat K n n) : Mat K n n :=
  (List.finRange n).foldl (fun (M : Mat K n n) (i : Fin n) =>
    if data.getD (off + i) 0 < 0 then M else put (data.getD (off + i) 0) M i i) M

/-- `blasfeo_pack_dmat(n, n, data + off, n, ..)` -/
def packSq {n : Nat} (off : Nat) (data : List K) : Mat K n n := fun i j => data.getD (off + (i + j * n)) 0

/-- `reset_P0_matrix`, zoro.in.c 838-855 -/
def resetP0 (ds : Desc K d) (data : List K) (M : Mat K d.nx d.nx) : Mat K d.nx d.nx :=
  if ds.inP0diag then setDiag 0 data M else if ds.inP0 then packSq 0 data else M

/-- `reset_Sigma_p_matrix`, zoro.in.c 924-940 -/
def resetS (ds : Desc K d) (data : List K) (M : Mat K d.np d.np) : Mat K d.np d.np :=
  if ds.inSdiag then setDiag (offS ds) data M else if ds.inS then packSq (offS ds) data else M

/-- `compute_GWG_stagewise_varying`, zoro.in.c 888-914: the diagonal of `W_stage_mat` is overwritten, then
`W_mat` is added to it -/
def gwgStage (ds : Desc K d) (data : List K) (stage : Nat) (m : Mem K d) : Mem K d :=
  let W1 : Mat K d.nw d.nw := fun i j => if i = j then data.getD (offWadd ds + (d.nw * stage + i)) 0 else m.Wst i j
  let W2 := W1 + m.W
  { m with Wst := W2, GWG := gwg ds.G W2 }

/-- `compute_next_P_matrix`, zoro.in.c 813-830 -/
def nextP (P : Mat K d.nx d.nx) (A : Mat K d.nx d.nx) (B : Mat K d.nx d.nu) (Kk : Mat K d.nu d.nx)
    (Wm : Mat K d.nx d.nx) : Mat K d.nx d.nx :=
  let AK := -(B * Kk) + A
  (AK * P) * AKᵀ + Wm

/-- `build_additive_term`, zoro.in.c 948-963 -/
def additive (GWG : Mat K d.nx d.nx) (Sp : Mat K d.nx d.np) (Sigma : Mat K d.np d.np) : Mat K d.nx d.nx :=
  (Sp * Sigma) * Spᵀ + GWG

/-- `update_Pi_matrix`, zoro.in.c 968-978 -/
def nextPi (AK : Mat K d.nx d.nx) (Pi Sp : Mat K d.nx d.np) : Mat K d.nx d.np := AK * Pi + Sp

/-- the mode that is compiled in: without `sens_forw_p` parameter uncertainty is ignored, zoro.in.c 1389, 1596 -/
def modeOf (ds : Desc K d) : Mode := if ds.sensP then ds.mode else .none

/-- one step of the uncertainty propagation, zoro.in.c 1375-1450 and 1581-1662 -/
def propagate (ds : Desc K d) (l : Lin K d) (gain : Nat → Mat K d.nu d.nx) (data : List K) (ii : Nat)
    (m : Mem K d) : Mem K d :=
  let m := if ds.inWadd then gwgStage ds data ii m else m
  match modeOf ds with
  | .none => { m with P := Function.update m.P (ii + 1) (nextP (m.P ii) (l.A ii) (l.B ii) (gain ii) m.GWG) }
  | .noise =>
    { m with P := Function.update m.P (ii + 1)
                    (nextP (m.P ii) (l.A ii) (l.B ii) (gain ii) (additive m.GWG (l.Sp ii) m.Sigma)) }
  | .constant =>
    let Pw := nextP m.Pw (l.A ii) (l.B ii) (gain ii) m.GWG
    let Pi := nextPi (-(l.B ii * gain ii) + l.A ii) m.Pi (l.Sp ii)
    { m with P := Function.update m.P (ii + 1) (Pw + (Pi * m.Sigma) * Piᵀ), Pw := Pw, Pi := Pi }

/-- `compute_KPK`, zoro.in.c 798-811 -/
def kpk (Kk : Mat K d.nu d.nx) (P : Mat K d.nx d.nx) : Mat K d.nu d.nu := (Kk * P) * Kkᵀ

/-- `compute_gh_beta`, zoro.in.c 769-796; only the diagonal is computed -/
def ghBeta {n : Nat} (Kk : Mat K d.nu d.nx) (C : Mat K n d.nx) (D : Mat K n d.nu) (P : Mat K d.nx d.nx)
    (i : Fin n) : K :=
  let CaDK := -(D * Kk) + C
  ((CaDK * P) * CaDKᵀ) i i

/-- the rows of the nonlinear constraints follow those of the linear ones, zoro.in.c 1539-1541, 1723-1725 -/
def Lin.Ch (l : Lin K d) (k : Nat) : Mat K d.nh d.nx := fun i j => l.C k (Fin.natAdd d.ng i) j
def Lin.Dh (l : Lin K d) (k : Nat) : Mat K d.nh d.nu := fun i j => l.D k (Fin.natAdd d.ng i) j
def Lin.Che (l : Lin K d) : Mat K d.nhe d.nx := fun i j => l.Ce (Fin.natAdd d.nge i) j

/-- the first rows of the matrix of the linear path constraints -/
def cgTop (hn : d.nge ≤ d.ng) (Cg : Mat K d.ng d.nx) : Mat K d.nge d.nx := fun i j => Cg (Fin.castLE hn i) j

/-- squared back-off of a row, zoro.in.c 1342-1347, 1458-1464, 1480-1486, 1506-1513, 1535-1556 -/
def rowSq (ds : Desc K d) (m : Mem K d) (l : Lin K d) (Kk : Mat K d.nu d.nx) (k : Nat) : Row d → K
  | .bu i => ds.gamma * ds.gamma * kpk Kk (m.P k) (m.idxbu i) (m.idxbu i)
  | .bx i => ds.gamma * ds.gamma * m.P k (m.idxbx i) (m.idxbx i)
  | .g i => ds.gamma * ds.gamma * ghBeta Kk m.Cg m.Dg (m.P k) i
  | .h i =>
    ds.gamma * ds.gamma * ghBeta Kk (l.Ch k) (l.Dh k) (m.P k) i

/-- the template conditions `nlb*_t > 0` -/
def hasKind (rows : List (Row d)) (k : Kind) : Bool := rows.any fun r => r.kind = k
def hasKindE (rows : List (RowE d)) (k : Kind) : Bool := rows.any fun r => r.kind = k

/-- Tightening at a stage before the last, zoro.in.c 1341-1367 (stage 0, only `ks = {bu}`) and 1456-1580.  The
blocks for the four kinds of rows act on disjoint entries and are done together here.  A bound array is passed
to the solver as a whole as soon as one of its entries is tightened. -/
def tighten (sq : K → K) (ds : Desc K d) (l : Lin K d) (Kk : Mat K d.nu d.nx) (ks : Kind → Bool) (k : Nat)
    (s : Mem K d × Nlp K d) : Mem K d × Nlp K d :=
  let m := s.1
  let n := s.2
  let b : Row d → K := fun r =>
    if ks r.kind && (hasKind ds.loT r.kind || hasKind ds.hiT r.kind) then
      if ds.barrier then rowSq ds m l Kk k r + ds.eps else rowSq ds m l Kk k r
    else m.bsq k r
  let loT : Row d → K := fun r => if ks r.kind && decide (r ∈ ds.loT) then m.lo r + sq (b r) else m.loT r
  let hiT : Row d → K := fun r => if ks r.kind && decide (r ∈ ds.hiT) then m.hi r - sq (b r) else m.hiT r
  ({ m with bsq := Function.update m.bsq k b, loT := loT, hiT := hiT },
   { n with
      lo := Function.update n.lo k fun r => if ks r.kind && hasKind ds.loT r.kind then loT r else n.lo k r
      hi := Function.update n.hi k fun r => if ks r.kind && hasKind ds.hiT r.kind then hiT r else n.hi k r })

/-- squared back-off of a terminal row, zoro.in.c 1666-1673, 1690-1700, 1720-1732.  The general linear rows are
computed from `Cg_mat`, the matrix of the path; with more terminal rows than path rows this reads past the end
of it, and the terminal `h` rows are packed past the end of `Ch_mat`: `none`.  (The array `d_Cgh_mat` that the
terminal Jacobian is copied into can also be too short; what follows it in the same allocation is scratch that is
filled again before it is read, so that this is left out.) -/
def rowSqE (ds : Desc K d) (m : Mem K d) (l : Lin K d) (Kk : Mat K d.nu d.nx) : RowE d → Option K
  | .bx i => some (ds.gamma * ds.gamma * m.P d.N (m.idxbxe i) (m.idxbxe i))
  | .g i =>
    if hn : d.nge ≤ d.ng then
      some (ds.gamma * ds.gamma * ghBeta Kk (cgTop hn m.Cg) 0 (m.P d.N) i)
    else none
  | .h i =>
    if d.nhe ≤ d.nh then
      some (ds.gamma * ds.gamma * ghBeta Kk l.Che 0 (m.P d.N) i)
    else none

/-- the accesses past the end of `Cg_mat` and `Ch_mat` at the terminal stage -/
def terminalUb (ds : Desc K d) : Bool :=
  ((hasKindE ds.loTE .g || hasKindE ds.hiTE .g) && !decide (d.nge ≤ d.ng)) ||
  ((hasKindE ds.loTE .h || hasKindE ds.hiTE .h) && !decide (d.nhe ≤ d.nh))

/-- `ineq_backoff_sq_buffer[N]` after lines 1666-1673, 1690-1700, 1720-1732 of zoro.in.c -/
def newBsqE (ds : Desc K d) (m : Mem K d) (l : Lin K d) (Kk : Mat K d.nu d.nx) (r : RowE d) : K :=
  if hasKindE ds.loTE r.kind || hasKindE ds.hiTE r.kind then
    match rowSqE ds m l Kk r with
    | some v => if ds.barrier then v + ds.eps else v
    | none => m.bsqE r
  else m.bsqE r

/-- tightening at the terminal stage, zoro.in.c 1665-1753; only used if `terminalUb` is false -/
def tightenE (sq : K → K) (ds : Desc K d) (l : Lin K d) (Kk : Mat K d.nu d.nx) (s : Mem K d × Nlp K d) :
    Mem K d × Nlp K d :=
  let m := s.1
  let n := s.2
  let b : RowE d → K := newBsqE ds m l Kk
  let loT : RowE d → K := fun r => if r ∈ ds.loTE then m.loE r + sq (b r) else m.loTE r
  let hiT : RowE d → K := fun r => if r ∈ ds.hiTE then m.hiE r - sq (b r) else m.hiTE r
  ({ m with bsqE := b, loTE := loT, hiTE := hiT },
   { n with
      loE := fun r => if hasKindE ds.loTE r.kind then loT r else n.loE r
      hiE := fun r => if hasKindE ds.hiTE r.kind then hiT r else n.hiE r })

/-- body of the loop over the stages, zoro.in.c 1373-1580 -/
def stageStep (sq : K → K) (ds : Desc K d) (l : Lin K d) (gain : Nat → Mat K d.nu d.nx) (data : List K)
    (s : Mem K d × Nlp K d) (ii : Nat) : Mem K d × Nlp K d :=
  tighten sq ds l (gain (ii + 1)) (fun _ => true) (ii + 1) (propagate ds l gain data ii s.1, s.2)

/-- `uncertainty_propagate_and_update`, zoro.in.c 1310-1755, for `N >= 1` -/
def propagateAll (sq : K → K) (ds : Desc K d) (l : Lin K d) (gain : Nat → Mat K d.nu d.nx) (data : List K)
    (s : Mem K d × Nlp K d) : Mem K d × Nlp K d :=
  -- 1334-1338
  let m : Mem K d := if modeOf ds = .constant then { s.1 with Pi := 0, Pw := s.1.P 0 } else s.1
  let s := tighten sq ds l (gain 0) (fun k => decide (k = .bu)) 0 (m, s.2)
  let s := (List.range (d.N - 1)).foldl (stageStep sq ds l gain data) s
  tightenE sq ds l (gain (d.N - 1)) (propagate ds l gain data (d.N - 1) s.1, s.2)

/-- the uncertainty matrices written into `data`, zoro.in.c 1840-1846, and the layout of
`acados_get_zoRO_Pk_matrices`, zoro.in.c 1903-1910 -/
def unpackP (nx cnt off : Nat) (P : Nat → Mat K nx nx) (data : Nat → K) : Nat → K :=
  (List.range cnt).foldl (fun data k => fun idx =>
    if h : off + k * nx * nx ≤ idx ∧ idx < off + k * nx * nx + nx * nx then
      P k ⟨(idx - (off + k * nx * nx)) % nx,
          Nat.mod_lt _ (Nat.pos_of_ne_zero fun h0 => by subst h0; omega)⟩
        ⟨(idx - (off + k * nx * nx)) / nx, Nat.div_lt_of_lt_mul (by omega)⟩
    else data idx) data

/-- result of `custom_update_function`: return value 0 with memory, NLP and data; return value 1; an access
outside of an object -/
inductive Out (K : Type*) (d : Dims)
  | ok (m : Mem K d) (n : Nlp K d) (data : Nat → K)
  | err
  | ub

/-- the part of `custom_update_function` that takes over the payload, zoro.in.c 1797-1829 -/
def readData (ds : Desc K d) (str : Bool) (data : List K) (m : Mem K d) : Mem K d :=
  let m : Mem K d := if str && (ds.inP0diag || ds.inP0) then { m with P := Function.update m.P 0 (resetP0 ds data (m.P 0)) } else m
  let m : Mem K d := if str && ds.inWdiag then { m with W := setDiag (offW ds) data m.W } else m
  let m : Mem K d := if str && (ds.inWdiag && !ds.inWadd) then { m with GWG := gwg ds.G m.W } else m
  if str && (ds.sensP && (ds.inSdiag || ds.inS)) then { m with Sigma := resetS ds data m.Sigma } else m

/-- `custom_update_function`, zoro.in.c 1758-1861, with the feedback gains `gain` (`K_mat` in every stage for
`CONSTANT_FEEDBACK`, otherwise `riccati_K_buffer`).  With `input_W_add_diag` the payload is read in every stage
whether or not there is one: without a payload a null pointer is dereferenced. -/
def updateWith (sq : K → K) (ds : Desc K d) (l : Lin K d) (gain : Nat → Mat K d.nu d.nx) (data : List K)
    (m : Mem K d) (n : Nlp K d) : Out K d :=
  match streaming ds data with
  | none => .err
  | some str =>
    if ds.inWadd && decide (0 < d.nw) && !str then .ub
    else if terminalUb ds then .ub
    else
      let s := propagateAll sq ds l gain data (readData ds str data m, n)
      let out : Nat → K := fun i => data.getD i 0
      .ok s.1 s.2 (if str && ds.outP then unpackP d.nx (d.N + 1) (offP ds) s.1.P out else out)

/-- `custom_update_function` with `CONSTANT_FEEDBACK` -/
def update (sq : K → K) (ds : Desc K d) (l : Lin K d) (data : List K) (m : Mem K d) (n : Nlp K d) : Out K d :=
  updateWith sq ds l (fun _ => ds.Kfb) data m n

end Acados.Zoro
