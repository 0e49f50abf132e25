import Verif.Model.SparseQp
/-!
# The sparse QP data handed to OSQP

Models `/repo/acados/ocp_qp/ocp_qp_osqp.c`.  Hessian and gradient are written as for Clarabel (`Model/SparseQp.lean`).
`±OSQP_INFTY` is `none`: OSQP treats such a bound as absent.
-/
namespace Acados.SparseQp.Osqp
open Acados.QpScal Acados.Csc
variable {K : Type*} [Field K] [LinearOrder K]

/-- rows of the bounds and general constraints of a stage, followed by one replicated row per slack, line 458 -/
def conLen (q : Qp K) (k : Nat) : Nat := (q.st k).nb + (q.st k).ng + (q.st k).ns
def slkLen (q : Qp K) (k : Nat) : Nat := 2 * (q.st k).ns

/-- `con_start`, `slk_start`, lines 453-461, 1637-1645 -/
def conStart (q : Qp K) : Nat := off (dynLen q) (q.N + 1)
def slkStart (q : Qp K) : Nat := off (conLen q) (q.N + 1) + conStart q

/-- `acados_osqp_num_constr`, lines 248-274 -/
def numConstr (q : Qp K) : Nat :=
  off (fun k => (q.st k).nb + (q.st k).ng + (q.st k).ns + 2 * (q.st k).ns) (q.N + 1) + off (fun k => q.nx (k + 1)) q.N

/-- `acados_osqp_nnzmax_P`, lines 278-296 -/
def nnzmaxP (q : Qp K) : Nat :=
  off (fun k => q.nx k * q.nx k + q.nu k * q.nu k + 2 * q.nx k * q.nu k + 2 * (q.st k).ns) (q.N + 1)

/-- `acados_osqp_nnzmax_A`, lines 300-331 -/
def nnzmaxA (q : Qp K) : Nat :=
  off (fun k => (q.st k).nb + (q.st k).ng * q.nx k + (q.st k).ng * q.nu k + (q.st k).ns * (q.nu k + q.nx k) +
    ((q.st k).nb + (q.st k).ng) * 2 * (q.st k).ns + 2 * (q.st k).ns) (q.N + 1) +
  off (fun k => q.nx (k + 1) * q.nx k + q.nx (k + 1) * q.nu k + q.nx (k + 1)) q.N

/-- `idxs_rev[kk][ii] >= 0` -/
def soft (q : Qp K) (k ii : Nat) : Bool := decide (0 ≤ (q.st k).idxs ii)

/-- number of softened rows among the first `r`, lines 519-526, 596-603, 654-667 (`itmp`), 469-476 (`nsb`, with `r = nb`) -/
def cnt (q : Qp K) (k r : Nat) : Nat := ((List.range r).filter (soft q k)).length

/-- number of softened general rows among the first `r`: the counter `itmp` of lines 534-543, 611-620 -/
def cntG (q : Qp K) (k r : Nat) : Nat := ((List.range r).filter fun ii => soft q k ((q.st k).nb + ii)).length

/-- the softened general rows -/
def softG (q : Qp K) (k : Nat) : List Nat := (List.range (q.st k).ng).filter fun ii => soft q k ((q.st k).nb + ii)

/-- rows of the column of variable `v` of `[u; x]`, lines 484-544, 561-621: dynamics, bound, general rows, replicated bound,
replicated general rows -/
def varRows (q : Qp K) (k v : Nat) : List Nat :=
  let c0 := conStart q + off (conLen q) k
  let m := (q.st k).nb + (q.st k).ng
  (if k < q.N then (List.range (q.nx (k + 1))).map fun ii => off (dynLen q) k + ii else []) ++
  (match boundOn q k v with
    | some ii => [c0 + ii]
    | none => []) ++
  ((List.range (q.st k).ng).map fun ii => c0 + ((q.st k).nb + ii)) ++
  (match boundOn q k v with
    | some ii => if soft q k ii then [c0 + (m + cnt q k ii)] else []
    | none => []) ++
  ((softG q k).map fun ii => c0 + (m + (cnt q k (q.st k).nb + cntG q k ii)))

/-- control column, lines 479-546 -/
def rowsU (q : Qp K) (k jj : Nat) : List Nat := varRows q k jj
/-- state column, lines 549-623 -/
def rowsX (q : Qp K) (k jj : Nat) : List Nat :=
  (if 0 < k then [off (dynLen q) k - q.nx k + jj] else []) ++ varRows q k (q.nu k + jj)
/-- lower slack column, lines 626-645 -/
def rowsSl (q : Qp K) (k jj : Nat) : List Nat :=
  ((softRows q k jj).map fun ii => conStart q + off (conLen q) k + ii) ++ [slkStart q + off (slkLen q) k + jj]
/-- upper slack column, lines 648-672 -/
def rowsSu (q : Qp K) (k jj : Nat) : List Nat :=
  ((softRows q k jj).map fun ii => conStart q + off (conLen q) k + ((q.st k).nb + (q.st k).ng + cnt q k ii)) ++
  [slkStart q + off (slkLen q) k + ((q.st k).ns + jj)]

/-- one stage of `update_constraints_matrix_structure`, lines 465-677 -/
def stageRows (q : Qp K) (k : Nat) : List (List Nat) :=
  (List.range (q.nu k)).map (rowsU q k) ++ (List.range (q.nx k)).map (rowsX q k) ++
  (List.range (q.st k).ns).map (rowsSl q k) ++ (List.range (q.st k).ns).map (rowsSu q k)

/-- `update_constraints_matrix_structure`, lines 436-681 -/
def conStructure (q : Qp K) : Build := build ((List.range (q.N + 1)).flatMap (stageRows q))

/-- values of the column of variable `v`, lines 708-749, 761-804 -/
def varVals (q : Qp K) (k v : Nat) : List K :=
  (if k < q.N then (List.range (q.nx (k + 1))).map fun ii => (q.st k).BAbt v ii else []) ++
  (match boundOn q k v with
    | some _ => [1]
    | none => []) ++
  ((List.range (q.st k).ng).map fun ii => (q.st k).DCt v ii) ++
  (match boundOn q k v with
    | some ii => if soft q k ii then [1] else []
    | none => []) ++
  ((softG q k).map fun ii => (q.st k).DCt v ii)

/-- lines 706-751 -/
def valsU (q : Qp K) (k jj : Nat) : List K := varVals q k jj
/-- lines 754-806 -/
def valsX (q : Qp K) (k jj : Nat) : List K := (if 0 < k then [-1] else []) ++ varVals q k (q.nu k + jj)
/-- lines 809-826 -/
def valsSl (q : Qp K) (k jj : Nat) : List K := ((softRows q k jj).map fun _ => 1) ++ [1]
/-- lines 829-846 -/
def valsSu (q : Qp K) (k jj : Nat) : List K := ((softRows q k jj).map fun _ => -1) ++ [1]

/-- one stage of `update_constraints_matrix_data`, lines 702-848 -/
def stageVals (q : Qp K) (k : Nat) : List (List K) :=
  (List.range (q.nu k)).map (valsU q k) ++ (List.range (q.nx k)).map (valsX q k) ++
  (List.range (q.st k).ns).map (valsSl q k) ++ (List.range (q.st k).ns).map (valsSu q k)

/-- `update_constraints_matrix_data`, lines 686-850 -/
def conData (q : Qp K) : List K := ((List.range (q.N + 1)).flatMap (stageVals q)).flatten

/-- write `n` entries at position `a` -/
def put (n : Nat) (v : Nat → Option K) (a : Nat) (b : Nat → Option K) : Nat → Option K :=
  fun i => if a ≤ i ∧ i < a + n then v (i - a) else b i

/-- running position and the arrays `l`, `u` -/
structure Bnd (K : Type*) where
  nn : Nat
  l : Nat → Option K
  u : Nat → Option K

/-- lines 868-881 -/
def boundsDyn (q : Qp K) (s : Bnd K) (kk : Nat) : Bnd K where
  nn := s.nn + q.nx (kk + 1)
  l := put (q.nx (kk + 1)) (fun j => some (- (q.st kk).b j)) s.nn s.l
  u := put (q.nx (kk + 1)) (fun j => some (- (q.st kk).b j)) s.nn s.u

/-- one iteration of the loop over the rows of a stage, lines 897-909: counter and `u` -/
def uppRow (q : Qp K) (kk nn : Nat) (s : Nat × (Nat → Option K)) (ii : Nat) : Nat × (Nat → Option K) :=
  let m := (q.st kk).nb + (q.st kk).ng
  if (q.st kk).idxs ii = -1 then (s.1, Function.update s.2 (nn + ii) (some (- (q.st kk).d (m + ii))))
  else (s.1 + 1, Function.update (Function.update s.2 (nn + ii) none) (nn + m + s.1) (some (- (q.st kk).d (m + ii))))

/-- lines 884-912 -/
def boundsCon (q : Qp K) (s : Bnd K) (kk : Nat) : Bnd K :=
  let m := (q.st kk).nb + (q.st kk).ng
  { nn := s.nn + ((q.st kk).nb + (q.st kk).ng + (q.st kk).ns)
    l := put (q.st kk).ns (fun _ => none) (s.nn + m) (put m (fun i => some ((q.st kk).d i)) s.nn s.l)
    u := ((List.range m).foldl (uppRow q kk s.nn) (0, s.u)).2 }

/-- lines 915-927 -/
def boundsSlk (q : Qp K) (s : Bnd K) (kk : Nat) : Bnd K where
  nn := s.nn + 2 * (q.st kk).ns
  l := put (2 * (q.st kk).ns) (fun i => some ((q.st kk).d (2 * (q.st kk).nb + 2 * (q.st kk).ng + i))) s.nn s.l
  u := put (2 * (q.st kk).ns) (fun _ => none) s.nn s.u

/-- `update_bounds`, lines 854-929 -/
def updateBounds (q : Qp K) (l u : Nat → Option K) : Bnd K :=
  let s := (List.range q.N).foldl (boundsDyn q) ⟨0, l, u⟩
  let s := (List.range (q.N + 1)).foldl (boundsCon q) s
  (List.range (q.N + 1)).foldl (boundsSlk q) s

/-- memory of the interface, lines 1485-1564 -/
structure Mem (K : Type*) where
  first : Bool
  q : List K
  l : Nat → Option K
  u : Nat → Option K
  Px : List K
  Ax : List K
  P : Build
  A : Build

/-- `ocp_qp_osqp_update_memory`, lines 933-952 -/
def updateMemory (q : Qp K) (mem : Mem K) : Mem K :=
  let mem := if mem.first then { mem with P := hessStructure q, A := conStructure q } else mem
  let b := updateBounds q mem.l mem.u
  { mem with l := b.l, u := b.u, q := gradient q, Px := hessData q, Ax := conData q }

/-- the problem OSQP works on after `osqp_init_data` or the update functions, lines 1551-1560, 1730-1744 (all values are
replaced, the index arrays are those of the first call) -/
def problem (q : Qp K) (mem : Mem K) : BoxQp K where
  n := numVars q
  m := numConstr q
  P := ⟨mem.P.p, mem.P.i, mem.Px⟩
  q := fun i => mem.q.getD i 0
  A := ⟨mem.A.p, mem.A.i, mem.Ax⟩
  l := mem.l
  u := mem.u

/-- preparation of a call and `mem->first_run = 0`, lines 1725-1744 -/
def call (q : Qp K) (mem : Mem K) : Mem K := { updateMemory q mem with first := false }

/-- `fill_in_qp_out`, lines 1626-1703, on the solution `x`, `y` of OSQP.  Every entry of `lam` is written once after the
initialisation with zero; entries outside the dimensions keep the value in `old`. -/
def fillOut (q : Qp K) (old : Sol K) (x y : Nat → K) : Sol K where
  ux := fun k i => if k ≤ q.N ∧ i < nv q k then x (off (nv q) k + i) else old.ux k i
  pi := fun k i => if k < q.N ∧ i < q.nx (k + 1) then y (off (dynLen q) k + i) else old.pi k i
  lam := fun k i =>
    let m := (q.st k).nb + (q.st k).ng
    let c0 := conStart q + off (conLen q) k
    if k ≤ q.N ∧ i < m then
      (if (q.st k).idxs i = -1 then (if y (c0 + i) ≤ 0 then - y (c0 + i) else 0) else - y (c0 + i))
    else if k ≤ q.N ∧ i < 2 * m then
      (if (q.st k).idxs (i - m) = -1 then (if y (c0 + (i - m)) ≤ 0 then 0 else y (c0 + (i - m)))
       else y (c0 + (m + cnt q k (i - m))))
    else if k ≤ q.N ∧ i < 2 * m + 2 * (q.st k).ns then - y (slkStart q + off (slkLen q) k + (i - 2 * m))
    else old.lam k i

/-- statuses of OSQP that the interface distinguishes -/
inductive OsStatus | solved | maxIter | primalInfeasible | other
  deriving DecidableEq

/-- lines 1778-1797 -/
def status : OsStatus → Status
  | .solved => .success
  | .maxIter => .maxIter
  | .primalInfeasible => .infeasible
  | .other => .unknown

end Acados.SparseQp.Osqp
