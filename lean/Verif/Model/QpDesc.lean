import Verif.Spec.QpDesc
import Verif.Model.QpDump

/-!
# QP descriptions in Python and the data passed to the QP solver

`interfaces/acados_template/acados_template/acados_ocp_qp.py` lines 256-379 (`set`,
`has_slacks`, `has_idxs_rev_not_idxs`, `has_masks`, `make_consistent`) and
`interfaces/acados_template/acados_template/acados_ocp_qp_solver.py` lines 69-89, 282-317
(`__init__`, `_set_initial_qp_data_in_c`). The checks of one stage are `QpDump.stageOk`.

Not modelled: types of arrays (`astype`), dimensions stored before an exception is raised.
-/

namespace Acados.QpDesc

open QpDump (F Mat Qp Dims dimsOf stageOk store empty)

variable {K : Type} [Field K] [LinearOrder K]

/-- A description: the array given to `set` for a field and a stage, or `None`
(acados_ocp_qp.py:46-84, 256-269). -/
structure Desc (K : Type) where
  N : ℕ
  arr : F → ℕ → Option (Mat K)

/-- `None` is replaced by empty arrays (acados_ocp_qp.py:300-308), others are stored as in `set`. -/
def fill (s : Desc K) : Qp K := ⟨s.N, fun f k => store f ((s.arr f k).getD empty)⟩

/-- `make_consistent`, acados_ocp_qp.py:294-379; `none` is an exception. -/
def makeConsistent (s : Desc K) : Option (Qp K) :=
  if (List.range (s.N + 1)).all (stageOk (fill s)) then some (fill s) else none

/-- `has_slacks`, acados_ocp_qp.py:271-274 -/
def hasSlacks (q : Qp K) : Bool := (List.range (q.N + 1)).any fun k => decide (0 < (dimsOf q).ns k)

/-- `has_idxs_rev_not_idxs`, acados_ocp_qp.py:276-284 -/
def hasIdxsRevNotIdxs (q : Qp K) : Bool :=
  (List.range (q.N + 1)).any fun k =>
    (List.range ((dimsOf q).ns k)).any fun i =>
      decide (1 < ((List.range (q.get .idxsRev k).rows).filter
        fun p => decide ((q.get .idxsRev k).e p 0 = (i : K))).length)

/-- `has_masks`, acados_ocp_qp.py:286-292 -/
def hasMasks (q : Qp K) : Bool :=
  [F.lbuM, .ubuM, .lbxM, .ubxM, .lgM, .ugM, .llsM, .lusM].any fun f =>
    (List.range (q.N + 1)).any fun k =>
      (List.range (q.get f k).rows).any fun i => decide ((q.get f k).e i 0 = 0)

/-- `__init__` of the QP solver up to the creation of the C structures,
acados_ocp_qp_solver.py:69-89; `opts` is `None` or has the attribute `qp_solver`; `none` is an
exception. The attribute is read before `None` is replaced by default options (lines 74-77).
`PARTIAL_CONDENSING_HPMPC` of line 84 is not a value of the option. -/
def create (s : Desc K) (opts : Option Solver) : Option (Qp K) :=
  match opts with
  | none => none
  | some sol =>
    match makeConsistent s with
    | none => none
    | some q =>
      if !(sol = .partHpipm || sol = .fullHpipm) && hasIdxsRevNotIdxs q then none
      else if sol = .partQpdunes && hasSlacks q then none
      else if !(sol = .partHpipm || sol = .fullHpipm || sol = .fullDaqp) && hasMasks q then none
      else some q

/-- `np.ravel(…, order='F')`, the memory passed to `ocp_qp_in_set`,
acados_ocp_qp_solver.py:309-317; `none` is outside of the array. -/
def flat (a : Mat K) (i : ℕ) : Option K :=
  if i < a.rows * a.cols then some (a.e (i % a.rows) (i / a.rows)) else none

end Acados.QpDesc
