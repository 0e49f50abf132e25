import Verif.Model.Cost
import Verif.Spec.OcpCost

/-!
# Checks of the cost of a problem description and the cost data of the generated solver

`interfaces/acados_template/acados_template/acados_ocp.py`: `_make_consistent_cost_initial`, `_path`, `_terminal`
(lines 267-478) and `copy_path_cost_to_stage_0` (lines 1731-1749); `verify_weighting_matrix` of `utils.py`
(lines 763-791); the setter of `cost_ext_fun_type_e` in `acados_ocp_cost.py` (lines 489-495); from
`c_templates_tera/acados_solver.in.c` the plan of the cost modules (lines 228-234), the dimensions `ny`, `nu`, `nz`
(lines 284-345, 374-416) and the calls that set scaling, references, weights, matrices and slack penalties
(lines 1116-1126, 1130-1455).

An exception in Python is `none`; all exceptions are one outcome, so the order of the checks is not modelled.
`AUTO` is resolved before (`detect_cost_type`, C86) and not modelled here.  `double` and the entries of numpy arrays
are an arbitrary linearly ordered field, so there is no NaN.  The eigenvalue routine of numpy is a parameter.  An
access of the template renderer beyond the end of an array is an error of code generation.  The branch of the
template with `new_time_steps` is not modelled.
-/

namespace Acados.OcpCost

variable {K : Type}

/-- tolerances of `verify_weighting_matrix`, utils.py:763, and the default relative tolerance of `np.allclose` -/
def tol [Field K] : K := 1 / 10 ^ 10
/-- the default `rtol` of `np.allclose`, which utils.py:778 does not set -/
def rtol [Field K] : K := 1 / 10 ^ 5

section
variable [Field K] [LinearOrder K]

/-- `np.allclose(A, A.T, atol=tol)`, utils.py:778 -/
def closeT (A : Arr K) : Bool :=
  (List.range A.rows).all fun i => (List.range A.rows).all fun j =>
    decide (|A.el i j - A.el j i| ≤ tol + rtol * |A.el j i|)

/-- `np.all(np.abs(A - np.diag(np.diag(A))) < tol)`, utils.py:782 -/
def nearDiag (A : Arr K) : Bool :=
  (List.range A.rows).all fun i => (List.range A.rows).all fun j =>
    decide (|A.el i j - (if i = j then A.el i i else 0)| < tol)

/-- `verify_weighting_matrix`, utils.py:763-791; `eig`: the smallest value of `np.linalg.eigvalsh`, `none` if it
fails.  `raise warnings.warn(...)` raises a `TypeError` after the warning, as `warn` returns `None`. -/
def weightOk (eig : Arr K → Option K) (A : Arr K) : Bool :=
  A.rows == A.cols && closeT A &&
  (if nearDiag A then !((List.range A.rows).any fun i => decide (A.el i i < 0))
   else match eig A with
     | none => false
     | some e => decide (e > tol))

/-- the checks of one stage, acados_ocp.py:283-342 and 355-415: `none` is an exception, `some none` leaves `dims.ny`
as it was -/
def stageOk (eig : Arr K → Option K) (nx nu nz : Nat) (conlHess : Bool) (c : Cost K) : Option (Option Nat) :=
  match c.kind with
  | .ls =>
      let ny := c.W.rows
      if c.sym then none
      else if !weightOk eig c.W then none
      else if c.Vx.rows != ny || c.Vu.rows != ny then none
      else if nz != 0 && c.Vz.rows != ny then none
      else if c.Vx.cols != nx && ny != 0 then none
      else if c.Vu.cols != nu && ny != 0 then none
      else if c.yref.length != ny then none
      else some (some ny)
  | .nls =>
      let ny := c.W.rows
      if c.sym then none
      else if !weightOk eig c.W then none
      else if (c.nyExpr == 0 && ny != 0) || c.nyExpr != ny || c.yref.length != ny then none
      else some (some ny)
  | .conl =>
      let ny := c.nyExpr
      if ny == 0 then none
      else if c.nr == 0 || c.nr != ny then none
      else if c.npsi == 0 || c.npsi != 1 then none
      else if c.yref.length != ny then none
      else if !conlHess then none
      else some (some ny)
  | .ext =>
      match c.extLen with
      | none => none
      | some n =>
          if n != 1 then none
          else match c.hess with
            | none => some none
            | some s => if s != (nx + nu, nx + nu) then none else some none

/-- the checks of the terminal stage, acados_ocp.py:424-478 -/
def termOk (eig : Arr K → Option K) (nx : Nat) (conlHess : Bool) (c : Cost K) : Option (Option Nat) :=
  match c.kind with
  | .ls =>
      let ny := c.W.rows
      if c.sym then none
      else if !weightOk eig c.W then none
      else if c.Vx.rows != ny then none
      else if c.Vx.cols != nx && ny != 0 then none
      else if c.yref.length != ny then none
      else some (some ny)
  | .nls =>
      let ny := c.W.rows
      if c.sym then none
      else if !weightOk eig c.W then none
      else if (c.nyExpr == 0 && ny != 0) || c.nyExpr != ny || c.yref.length != ny then none
      else some (some ny)
  | .conl =>
      let ny := c.nyExpr
      if ny == 0 then none
      else if c.nr == 0 || c.nr != ny then none
      else if c.npsi == 0 || c.npsi != 1 then none
      else if c.yref.length != ny then none
      else if !conlHess then none
      else some (some ny)
  | .ext =>
      match c.extLen with
      | none => none
      | some n =>
          if n != 1 then none
          else match c.hess with
            | none => some none
            | some s => if s != (nx, nx) then none else some none

/-- `make_consistent`, acados_ocp.py:1149-1151 with 273-278, 350-351; with `cost_type_0 = None` every field of the
initial cost is replaced by that of the path cost, lines 1731-1749 -/
def makeConsistent (eig : Arr K → Option K) (D : Desc K) : Option (Desc K) :=
  if D.N = 0 then
    match termOk eig D.nx D.conlHess D.costE with
    | none => none
    | some n => some { D with nyE := n.getD D.nyE }
  else
    let c0 := D.cost0.getD D.cost
    match stageOk eig D.nx D.nu D.nz D.conlHess c0, stageOk eig D.nx D.nu D.nz D.conlHess D.cost,
        termOk eig D.nx D.conlHess D.costE with
    | some n0, some n, some nE =>
        some { D with cost0 := some c0, ny0 := n0.getD D.ny0, ny := n.getD D.ny, nyE := nE.getD D.nyE }
    | _, _, _ => none

end

/-- the setter of `cost_ext_fun_type_e`, acados_ocp_cost.py:489-495: `in` tests for a substring of the type of the
path cost; `none` is an exception -/
def setExtFunTypeE (path v : List Char) : Option (List Char) := if v <:+: path then some v else none

/-- what can go wrong: rendering the template, or `exit(1)` of the setter -/
inductive Err
  | render | exit
  deriving DecidableEq

section
variable [Zero K] [DecidableEq K]

/-- `calloc`, then the assignments of the entries that are not 0, `b[f i] = g i` for `i` in `l` -/
def fill {ι : Type} (f : ι → Nat) (g : ι → K) (l : List ι) : Nat → K :=
  l.foldl (fun b i => if g i ≠ 0 then Function.update b (f i) (g i) else b) (fun _ => 0)

/-- the buffer of a vector, e.g. acados_solver.in.c:1134-1140 -/
def vecBuf (n : Nat) (l : List K) : Except Err (Nat → K) :=
  if n ≤ l.length then .ok (fill id (fun j => l.getD j 0) (List.range n)) else .error .render

/-- the nested loops over rows `j` and columns `k` -/
def pairs (n m : Nat) : List (Nat × Nat) := (List.range n).flatMap fun j => (List.range m).map fun k => (j, k)

/-- the buffer of a matrix, column-major, e.g. acados_solver.in.c:1145-1154 -/
def matBuf (n m : Nat) (A : Arr K) : Except Err (Nat → K) :=
  if n = 0 ∨ m = 0 ∨ (n ≤ A.rows ∧ m ≤ A.cols) then
    .ok (fill (fun i => i.1 + n * i.2) (fun i => A.el i.1 i.2) (pairs n m))
  else .error .render

/-- one call: field and buffer -/
abbrev Call (K : Type) := Fld × (Nat → K)

/-- the fields the setters of the modules know: ocp_nlp_cost_ls.c:264-369, ocp_nlp_cost_nls.c:239-328,
ocp_nlp_cost_conl.c:219-273, ocp_nlp_cost_external.c:216-286 -/
def accepts : Kind → Fld → Bool
  | .ls, _ => true
  | .nls, f => f != .Vx && f != .Vu && f != .Vz
  | .conl, f => f != .Vx && f != .Vu && f != .Vz && f != .W
  | .ext, f => f != .Vx && f != .Vu && f != .Vz && f != .W && f != .yref

/-- the calls for references, weights and matrices of one stage: acados_solver.in.c:1133-1199 (initial), 1202-1286
(path), 1290-1332 (terminal, where there are no controls and no algebraic variables) -/
def costCalls (ny nx nu nz : Nat) (c : Cost K) : Except Err (List (Call K)) :=
  if ny = 0 then .ok []
  else do
    let y ← vecBuf ny c.yref
    let w ← (if c.kind = .nls ∨ c.kind = .ls then (matBuf ny ny c.W).map fun b => [(Fld.W, b)] else .ok [])
    let x ← (if c.kind = .ls then (matBuf ny nx c.Vx).map fun b => [(Fld.Vx, b)] else .ok [])
    let u ← (if c.kind = .ls ∧ 0 < nu then (matBuf ny nu c.Vu).map fun b => [(Fld.Vu, b)] else .ok [])
    let z ← (if c.kind = .ls ∧ 0 < nz then (matBuf ny nz c.Vz).map fun b => [(Fld.Vz, b)] else .ok [])
    .ok ((Fld.yref, y) :: (w ++ x ++ u ++ z))

/-- the calls for the slack penalties of one stage: acados_solver.in.c:1333-1371, 1374-1414, 1417-1455 -/
def penCalls (ns : Nat) (p : Pen K) : Except Err (List (Call K)) :=
  if ns = 0 then .ok []
  else do
    let a ← vecBuf ns p.Zl
    let b ← vecBuf ns p.Zu
    let c ← vecBuf ns p.zl
    let d ← vecBuf ns p.zu
    .ok [(Fld.Zl, a), (Fld.Zu, b), (Fld.zl, c), (Fld.zu, d)]

/-- `cost_scaling[k]`, acados_solver.in.c:1117-1126 -/
def scaleCall (s : List K) (k : Nat) : Except Err (Call K) :=
  match s[k]? with
  | none => .error .render
  | some v => .ok (Fld.scaling, fun _ => v)

/-- `dims.ny*` of stage `k` in the template, acados_solver.in.c:299, 328, 341 -/
def nyAt (D : Desc K) (k : Nat) : Nat := if k = D.N then D.nyE else if k = 0 then D.ny0 else D.ny

/-- the type of the cost of stage `k`, acados_solver.in.c:228-234, with the data that stage gets; `cost_type_0` that
is `None` is rendered as no type at all -/
def planned (D : Desc K) (k : Nat) : Except Err (Cost K) :=
  if k = D.N then .ok D.costE
  else if k = 0 then (match D.cost0 with | none => .error .render | some c => .ok c)
  else .ok D.cost

/-- all calls of the generated solver on the cost module of stage `k`, in their order -/
def calls (D : Desc K) (k : Nat) : Except Err (List (Call K)) := do
  let c ← planned D k
  let s ← scaleCall D.scaling k
  let l ← costCalls (nyAt D k) D.nx (if k = D.N then 0 else D.nu) (if k = D.N then 0 else D.nz) c
  let p ← penCalls (if k = D.N then D.nsE else if k = 0 then D.ns0 else D.ns)
    (if k = D.N then D.penE else if k = 0 then D.pen0 else D.pen)
  if (s :: (l ++ p)).all (fun a => accepts c.kind a.1) then .ok (s :: (l ++ p)) else .error .exit

end

/-- how `ocp_nlp_cost_ls_model_set` reads a buffer, ocp_nlp_cost_ls.c:264-362: `blasfeo_pack_dmat` and
`blasfeo_pack_tran_dmat` with leading dimension `ny` -/
def toLs (ny : Nat) (a : Call K) : Cost.LsField K :=
  let m : Nat → Nat → K := fun i j => a.2 (i + ny * j)
  match a.1 with
  | .scaling => .scaling (a.2 0)
  | .yref => .yref a.2
  | .W => .W m
  | .Vx => .Vx m
  | .Vu => .Vu m
  | .Vz => .Vz m
  | .Zl => .Zl a.2
  | .Zu => .Zu a.2
  | .zl => .zl a.2
  | .zu => .zu a.2

/-- the dimensions of the cost module of stage `k`, acados_solver.in.c:284-341 -/
def cDims (D : Desc K) (k : Nat) : Cost.Dims where
  nx := D.nx
  nu := if k = D.N then 0 else D.nu
  nz := if k = D.N then 0 else D.nz
  ny := if k = D.N then D.nyE else if k = 0 then D.ny0 else D.ny
  ns := if k = D.N then D.nsE else if k = 0 then D.ns0 else D.ns

end Acados.OcpCost
