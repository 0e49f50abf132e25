import Verif.Model.QpScaling
import Verif.Spec.Csc
/-!
# The sparse QP data handed to OSQP and Clarabel

Models `/repo/acados/ocp_qp/ocp_qp_clarabel.c` and the parts of `/repo/acados/ocp_qp/ocp_qp_osqp.c` shared with it.
The QP (`ocp_qp_in`) is the structure of `Model/QpScaling.lean`.

The C code writes row indices, column pointers and values into flat arrays at a running position `nn`.  Here such an array
is the list of what has been written, so that `nn` is its length.  Index arrays and values are produced by different
functions of the code and stay separate.  Running row offsets are the sums `off`.
Integers are unbounded (the code uses `int`/`uintptr_t`).
-/
namespace Acados.SparseQp
open Acados.QpScal Acados.Csc
variable {K : Type*} [Field K] [LinearOrder K]

/-- state of a structure pass: column pointers and row indices written so far -/
structure Build where
  p : List Nat
  i : List Nat

/-- `col_ptr[col] = nn; col++;` and then the row indices of the column, clarabel.c:245-253, 355-387 and so on -/
def addCol (s : Build) (rows : List Nat) : Build := ⟨s.p ++ [s.i.length], s.i ++ rows⟩

/-- all columns, then `col_ptr[col] = nn`, clarabel.c:271, 485; osqp.c:398, 680 -/
def build (cols : List (List Nat)) : Build :=
  let s := cols.foldl addCol ⟨[], []⟩
  ⟨s.p ++ [s.i.length], s.i⟩

/-- number of variables of a stage: controls, states, lower and upper slacks -/
def nv (q : Qp K) (k : Nat) : Nat := q.nu k + q.nx k + 2 * (q.st k).ns

/-- `acados_clarabel_num_vars` clarabel.c:112-122, `acados_osqp_num_vars` osqp.c:227-244 -/
def numVars (q : Qp K) : Nat := off (nv q) (q.N + 1)

/-- `update_gradient`, clarabel.c:205-223, osqp.c:335-350: all `rqz`, one after the other -/
def gradient (q : Qp K) : List K :=
  (List.range (q.N + 1)).flatMap fun k => (List.range (nv q k)).map (q.st k).g

/-- columns of one stage in `update_hessian_structure`, clarabel.c:240-269, osqp.c:367-396: rows `offset … offset+jj` for
the columns of `RSQ`, the diagonal for the columns of `Z` -/
def hessRows (q : Qp K) (k : Nat) : List (List Nat) :=
  ((List.range (q.nx k + q.nu k)).map fun jj => (List.range (jj + 1)).map fun ii => off (nv q) k + ii) ++
  ((List.range (2 * (q.st k).ns)).map fun jj => [off (nv q) k + (q.nx k + q.nu k) + jj])

/-- one stage in `update_hessian_data`, clarabel.c:291-306, osqp.c:416-431: row `ii` of the lower triangle of `RSQrq`, then
`Z` -/
def hessVals (q : Qp K) (k : Nat) : List (List K) :=
  ((List.range (q.nx k + q.nu k)).map fun ii => (List.range (ii + 1)).map fun j => (q.st k).H ii j) ++
  ((List.range (2 * (q.st k).ns)).map fun jj => [(q.st k).Z jj])

/-- `update_hessian_structure` -/
def hessStructure (q : Qp K) : Build := build ((List.range (q.N + 1)).flatMap (hessRows q))
/-- `update_hessian_data` -/
def hessData (q : Qp K) : List K := ((List.range (q.N + 1)).flatMap (hessVals q)).flatten

/-- number of dynamics rows of stage `k`: `kk < N ? nx[kk+1] : 0` -/
def dynLen (q : Qp K) (k : Nat) : Nat := if k < q.N then q.nx (k + 1) else 0

/-- the loop with `break` over the bounds of a stage, clarabel.c:369-379, 414-424; osqp.c:495-504, 572-581: the first bound
on variable `v` -/
def boundOn (q : Qp K) (k v : Nat) : Option Nat := (List.range (q.st k).nb).find? fun ii => (q.st k).idxb ii == v

/-- the bound rows with `idxs_rev[kk][ii] == jj` -/
def softRows (q : Qp K) (k jj : Nat) : List Nat :=
  (List.range ((q.st k).nb + (q.st k).ng)).filter fun ii => (q.st k).idxs ii == (jj : Int)

/-! ## Clarabel -/
namespace Clarabel

/-- inequality rows of a stage: lower and upper side of every bound and general row -/
def conLen (q : Qp K) (k : Nat) : Nat := 2 * (q.st k).nb + 2 * (q.st k).ng
def slkLen (q : Qp K) (k : Nat) : Nat := 2 * (q.st k).ns

/-- `con_start`, `slk_start`, lines 330-338 -/
def conStart (q : Qp K) : Nat := off (dynLen q) (q.N + 1)
def slkStart (q : Qp K) : Nat := off (conLen q) (q.N + 1) + conStart q

/-- `acados_clarabel_num_constr`, lines 126-148 -/
def numConstr (q : Qp K) : Nat :=
  off (fun k => 2 * (q.st k).nb + 2 * (q.st k).ng + 2 * (q.st k).ns + dynLen q k) (q.N + 1)

/-- `acados_clarabel_nnzmax_P`, lines 152-167 -/
def nnzmaxP (q : Qp K) : Nat :=
  off (fun k => (q.nu k + q.nx k) * (q.nu k + q.nx k + 1) / 2 + 2 * (q.st k).ns) (q.N + 1)

/-- `acados_clarabel_nnzmax_A`, lines 171-201 -/
def nnzmaxA (q : Qp K) : Nat :=
  off (fun k =>
    2 * (q.st k).nb + 2 * (q.st k).ng * q.nx k + 2 * (q.st k).ng * q.nu k +
    2 * ((q.st k).nb + (q.st k).ng) * 2 * (q.st k).ns + 2 * (q.st k).ns +
    (if k < q.N then q.nx (k + 1) * q.nx k + q.nx (k + 1) * q.nu k + q.nx (k + 1) else 0)) (q.N + 1)

/-- rows of a column of `B`/`A`, of the bound on variable `v` and of `D`/`C`, lines 358-387, 403-432 -/
def varRows (q : Qp K) (k v : Nat) : List Nat :=
  let c0 := conStart q + off (conLen q) k
  (if k < q.N then (List.range (q.nx (k + 1))).map fun ii => off (dynLen q) k + ii else []) ++
  (match boundOn q k v with
    | some ii => [c0 + ii, c0 + (q.st k).nb + (q.st k).ng + ii]
    | none => []) ++
  ((List.range (q.st k).ng).map fun ii => c0 + (q.st k).nb + ii) ++
  ((List.range (q.st k).ng).map fun ii => c0 + 2 * (q.st k).nb + (q.st k).ng + ii)

/-- control column `jj`, lines 353-388 -/
def rowsU (q : Qp K) (k jj : Nat) : List Nat := varRows q k jj

/-- state column `jj`, lines 391-433 -/
def rowsX (q : Qp K) (k jj : Nat) : List Nat :=
  (if 0 < k then [off (dynLen q) k - q.nx k + jj] else []) ++ varRows q k (q.nu k + jj)

/-- lower slack column `jj`, lines 436-455 -/
def rowsSl (q : Qp K) (k jj : Nat) : List Nat :=
  ((softRows q k jj).map fun ii => conStart q + off (conLen q) k + ii) ++ [slkStart q + off (slkLen q) k + jj]

/-- upper slack column `jj`, lines 458-477 -/
def rowsSu (q : Qp K) (k jj : Nat) : List Nat :=
  ((softRows q k jj).map fun ii => conStart q + off (conLen q) k + (q.st k).nb + (q.st k).ng + ii) ++
  [slkStart q + off (slkLen q) k + (q.st k).ns + jj]

/-- one stage of `update_constraints_matrix_structure`, lines 349-482 -/
def stageRows (q : Qp K) (k : Nat) : List (List Nat) :=
  (List.range (q.nu k)).map (rowsU q k) ++ (List.range (q.nx k)).map (rowsX q k) ++
  (List.range (q.st k).ns).map (rowsSl q k) ++ (List.range (q.st k).ns).map (rowsSu q k)

/-- `update_constraints_matrix_structure`, lines 313-488 -/
def conStructure (q : Qp K) : Build := build ((List.range (q.N + 1)).flatMap (stageRows q))

/-- values of a column of `B`/`A`, bound and `D`/`C` (the negated row first), lines 514-540, 553-579 -/
def varVals (q : Qp K) (k v : Nat) : List K :=
  (if k < q.N then (List.range (q.nx (k + 1))).map fun ii => (q.st k).BAbt v ii else []) ++
  (match boundOn q k v with
    | some _ => [-1, 1]
    | none => []) ++
  ((List.range (q.st k).ng).map fun ii => - (q.st k).DCt v ii) ++
  ((List.range (q.st k).ng).map fun ii => (q.st k).DCt v ii)

/-- lines 512-541 -/
def valsU (q : Qp K) (k jj : Nat) : List K := varVals q k jj
/-- lines 544-581 -/
def valsX (q : Qp K) (k jj : Nat) : List K := (if 0 < k then [-1] else []) ++ varVals q k (q.nu k + jj)
/-- lines 584-601 -/
def valsSl (q : Qp K) (k jj : Nat) : List K := ((softRows q k jj).map fun _ => -1) ++ [-1]
/-- lines 604-621 -/
def valsSu (q : Qp K) (k jj : Nat) : List K := ((softRows q k jj).map fun _ => -1) ++ [-1]

/-- one stage of `update_constraints_matrix_data`, lines 509-623 -/
def stageVals (q : Qp K) (k : Nat) : List (List K) :=
  (List.range (q.nu k)).map (valsU q k) ++ (List.range (q.nx k)).map (valsX q k) ++
  (List.range (q.st k).ns).map (valsSl q k) ++ (List.range (q.st k).ns).map (valsSu q k)

/-- `update_constraints_matrix_data`, lines 493-626 -/
def conData (q : Qp K) : List K := ((List.range (q.N + 1)).flatMap (stageVals q)).flatten

/-- `for (ii = 0; ii < n; ii++) b[a+ii] = -b[a+ii];` -/
def neg (n a : Nat) (b : Nat → K) : Nat → K := fun i => if a ≤ i ∧ i < a + n then - b i else b i
/-- `blasfeo_unpack_dvec(n, v, off, &b[a], 1)` -/
def unpack (n : Nat) (v : Nat → K) (a : Nat) (b : Nat → K) : Nat → K :=
  fun i => if a ≤ i ∧ i < a + n then v (i - a) else b i

/-- lines 644-653; the loop negates `2*nx[kk+1]` entries although `nx[kk+1]` have been written -/
def boundsDyn (q : Qp K) (s : Nat × (Nat → K)) (kk : Nat) : Nat × (Nat → K) :=
  (s.1 + q.nx (kk + 1), neg (2 * q.nx (kk + 1)) s.1 (unpack (q.nx (kk + 1)) (q.st kk).b s.1 s.2))
/-- lines 656-667 -/
def boundsCon (q : Qp K) (s : Nat × (Nat → K)) (kk : Nat) : Nat × (Nat → K) :=
  let m := (q.st kk).nb + (q.st kk).ng
  let b := unpack m (q.st kk).d s.1 s.2
  let b := unpack m (fun i => (q.st kk).d (m + i)) (s.1 + (q.st kk).nb + (q.st kk).ng) b
  (s.1 + (2 * (q.st kk).nb + 2 * (q.st kk).ng), neg (2 * (q.st kk).nb + 2 * (q.st kk).ng) s.1 b)
/-- lines 670-679 -/
def boundsSlk (q : Qp K) (s : Nat × (Nat → K)) (kk : Nat) : Nat × (Nat → K) :=
  let b := unpack (2 * (q.st kk).ns) (fun i => (q.st kk).d (2 * (q.st kk).nb + 2 * (q.st kk).ng + i)) s.1 s.2
  (s.1 + 2 * (q.st kk).ns, neg (2 * (q.st kk).ns) s.1 b)

/-- `update_bounds`, lines 630-683, on the memory that starts at `mem->b` -/
def updateBounds (q : Qp K) (b : Nat → K) : Nat → K :=
  let s := (List.range q.N).foldl (boundsDyn q) (0, b)
  let s := (List.range (q.N + 1)).foldl (boundsCon q) s
  let s := (List.range (q.N + 1)).foldl (boundsSlk q) s
  s.2

/-- memory of the interface, lines 906-958: `b`, `P_nzval` and `A_nzval` are adjacent (`buf`, in this order), the index
arrays are behind them.  What is behind `A_nzval` is not part of `buf`. -/
structure Mem (K : Type*) where
  buf : Nat → K
  q : List K
  P : Build
  A : Build

/-- `n` values from position `a` of the buffer -/
def read (buf : Nat → K) (a n : Nat) : List K := (List.range n).map fun i => buf (a + i)
/-- write a list at position `a` -/
def write (l : List K) (a : Nat) (buf : Nat → K) : Nat → K := unpack l.length (fun i => l.getD i 0) a buf

/-- `ocp_qp_clarabel_update_memory`, lines 727-740.  `P_nzval` starts at `b + m`, `A_nzval` at `b + m + P_nnzmax`. -/
def updateMemory (firstRun : Bool) (q : Qp K) (mem : Mem K) : Mem K :=
  let mem := if firstRun then { mem with P := hessStructure q, A := conStructure q } else mem
  let buf := write (hessData q) (numConstr q) mem.buf
  let buf := write (conData q) (numConstr q + nnzmaxP q) buf
  { mem with buf := updateBounds q buf, q := gradient q }

/-- the problem passed to Clarabel, lines 687-723 and 1136-1160: matrices and vectors read from the memory (`P_nnz`,
`A_nnz` are the lengths of the index arrays, lines 273, 487), the first `con_start` rows in the zero cone (lines 341-345) -/
def problem (q : Qp K) (mem : Mem K) : ConeQp K where
  n := numVars q
  m := numConstr q
  mEq := conStart q
  P := ⟨mem.P.p, mem.P.i, read mem.buf (numConstr q) mem.P.i.length⟩
  q := fun i => mem.q.getD i 0
  A := ⟨mem.A.p, mem.A.i, read mem.buf (numConstr q + nnzmaxP q) mem.A.i.length⟩
  b := mem.buf

/-- `fill_in_qp_out`, lines 1018-1072, on the solution `x`, `z` of Clarabel; entries outside the dimensions keep the
value in `old` -/
def fillOut (q : Qp K) (old : Sol K) (x z : Nat → K) : Sol K where
  ux := fun k i => if k ≤ q.N ∧ i < nv q k then x (off (nv q) k + i) else old.ux k i
  pi := fun k i => if k < q.N ∧ i < q.nx (k + 1) then z (off (dynLen q) k + i) else old.pi k i
  lam := fun k i =>
    if k ≤ q.N ∧ i < conLen q k then z (off (dynLen q) q.N + off (conLen q) k + i)
    else if k ≤ q.N ∧ i < conLen q k + slkLen q k then
      z (off (dynLen q) q.N + off (conLen q) (q.N + 1) + off (slkLen q) k + (i - conLen q k))
    else old.lam k i

/-- statuses of Clarabel that the interface distinguishes -/
inductive ClStatus | solved | maxIterations | other
  deriving DecidableEq

/-- lines 1195-1202 -/
def status : ClStatus → Status
  | .solved => .success
  | .maxIterations => .maxIter
  | .other => .qpFailure

end Clarabel
end Acados.SparseQp
