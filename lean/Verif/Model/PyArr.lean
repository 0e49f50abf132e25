import Verif.Spec.PyArr
import Verif.Model.Params

/-!
# Arrays handed from Python to C

`interfaces/acados_template/acados_template/acados_ocp_solver.py`: `set` (1984-2060), `set_flat` (1252-1271), `cost_set`
(2104-2171), `cost_get` (2067-2101), `constraints_set` (2211-2274), `set_params_sparse` (2610-2650), `set_new_time_steps` (670-716);
`acados_sim_solver.py`: `set` (435-487); `acados_ocp_batch_solver.py`: `constraints_set`.

Arrays are memory with an offset and strides.  `astype(float)` copies; the copy is compact, and of a matrix it has the order
of the strides (`order='K'`): column by column if the row stride is the smaller one, otherwise row by row.  (For matrices
with one row or column both are the same.)  Elements are doubles; conversions from other types are not modelled, nor are
arrays without dimensions, or with three and more where not said.  Comparisons of elements are those of numbers, so NaN is left out.
-/

namespace Acados.PyArr

variable {K : Type}

/-- a Python exception, `exit(1)`, undefined behaviour -/
inductive Err
  | raise | exit | ub
  deriving DecidableEq

/-- the values users pass -/
inductive Val (K : Type)
  | num (x : K)
  | vec (a : Nd1 K)
  | mat (a : Nd2 K)

/-- argument `api` -/
inductive Api
  | old | warn | new | unknown
  deriving DecidableEq

/-- `tuple(dims)`: `dims_out[1] = 0` for vectors, ocp_nlp_interface.c:929-995, 1230-1290 -/
def Fld.dims : Fld → Nat × Nat
  | .vec n => (n, 0)
  | .mat r c => (r, c)

/-- memory of `a.astype(float)` -/
def copy1 (a : Nd1 K) : Buf K := ⟨a.n, a.get⟩

/-- `np.ravel(a, order='F')` -/
def colMajor (a : Nd2 K) : Buf K := ⟨a.r * a.c, fun k => a.get (k % a.r) (k / a.r)⟩

/-- `np.ravel(a, order='C')` -/
def rowMajor (a : Nd2 K) : Buf K := ⟨a.r * a.c, fun k => a.get (k / a.c) (k % a.c)⟩

/-- memory of `a.astype(float)`, and `np.ravel(a, order='K')` -/
def copy2 (a : Nd2 K) : Buf K := if a.sr.natAbs < a.sc.natAbs then colMajor a else rowMajor a

/-- `np.all(np.ravel(value_, order='F') == np.ravel(value_, order='K'))`, acados_ocp_solver.py:2142, 2246 -/
def sameOrder [DecidableEq K] (a : Nd2 K) : Bool :=
  (List.range (a.r * a.c)).all fun k => decide ((colMajor a).val k = (copy2 a).val k)

/-- `cost_set`, `constraints_set`: acados_ocp_solver.py:2104-2171, 2211-2274, up to the call in C; `none` for the field:
unknown to `ocp_nlp_..._dims_get_from_attr`, which ends the process; `none` for the value: three or more dimensions -/
def modelSet [DecidableEq K] (N stage : Int) (f : Option Fld) (api : Api) (v : Option (Val K)) : Except Err (Buf K) :=
  if stage < 0 ∨ N < stage then .error .raise
  else
    match f with
    | none => .error .exit
    | some f =>
      match v with
      | some (.num x) => if (1, 0) = f.dims then .ok ⟨1, fun _ => x⟩ else .error .raise
      | some (.vec a) => if (a.n, 0) = f.dims then .ok (copy1 a) else .error .raise
      | some (.mat a) => do
          let b ← (match api with
            | .old => .ok (copy2 a)
            | .warn => if sameOrder a then .ok (colMajor a) else .error .raise
            | .new => .ok (colMajor a)
            | .unknown => .error .raise)
          if (a.r, a.c) = f.dims then .ok b else .error .raise
      | none => .error .raise

/-- `cost_get`, `constraints_get` of a matrix: acados_ocp_solver.py:2088-2101; an array in Fortran order that C fills column
by column with what it holds -/
def modelGet (r c : Nat) (held : Nat → Nat → K) : Nd2 K :=
  ⟨fun k => held (k.toNat % r) (k.toNat / r), 0, r, c, 1, r⟩

/-- `set`, acados_ocp_solver.py:2008-2045 (fields other than `p`): the first dimension is checked; `dim` is the dimension of
the field -/
def fieldSet (N stage : Int) (dim : Nat) (v : Val K) : Except Err (Buf K) :=
  if stage < 0 ∨ N < stage then .error .raise
  else
    match v with
    | .num x => if 1 = dim then .ok ⟨1, fun _ => x⟩ else .error .raise
    | .vec a => if a.n = dim then .ok (copy1 a) else .error .raise
    | .mat a => if a.r = dim then .ok (copy2 a) else .error .raise

/-- `AcadosSimSolver.set`, acados_sim_solver.py:435-487 (fields other than `p`): the pointer is taken before `np.ravel`.
`np.ravel` gives a view of the copy if that is in Fortran order; otherwise it makes another copy, and the first one, that the
pointer is for, is freed -/
def simSet (dim : Nat) (v : Val K) : Except Err (Buf K) :=
  match v with
  | .num x => if 1 = dim then .ok ⟨1, fun _ => x⟩ else .error .raise
  | .vec a => if a.n = dim then .ok (copy1 a) else .error .raise
  | .mat a =>
      if a.r * a.c ≠ dim then .error .raise
      else if a.sr.natAbs < a.sc.natAbs ∨ a.r ≤ 1 ∨ a.c ≤ 1 then .ok (copy2 a)
      else .error .ub

/-- what C reads through `a.ctypes.data` without a copy: consecutive elements -/
def raw (a : Nd1 K) : Nat → K := fun k => a.mem (a.off + k)

/-- conversion of indices to `np.intc` keeps the lower 32 bits -/
def wrap (n : Int) : Int := (n + 2147483648) % 4294967296 - 2147483648

/-- `set_params_sparse`, acados_ocp_solver.py:2610-2650: the updates C makes; the values are not copied -/
def sparseUpdates (N stage : Int) (np : Nat) (idx : List Int) (v : Nd1 K) : Except Err (List (Int × K)) :=
  if stage < 0 ∨ N < stage then .error .raise
  else if v.n ≠ idx.length then .error .raise
  else if idx.any fun i => decide ((np : Int) ≤ i) then .error .raise
  else .ok ((List.range v.n).map fun k => (wrap (idx.getD k 0), raw v k))

/-- `set_params_sparse` with `ocp_nlp_in_set_params_sparse` (modelled for C41) -/
def setSparse (np : Nat → Nat) (N : Int) (stage : Nat) (idx : List Int) (v : Nd1 K) (h : Int → K) :
    Except Err (Int → K) :=
  (sparseUpdates N stage (np stage) idx v).map fun u => Params.inSetSparse np stage u h

/-- the solver and its description: the time steps in C, and which array the description refers to -/
structure Ts (K : Type) where
  objs : Nat → Nd1 K
  cN : Nat
  cTs : Nat → K
  desc : Nat

/-- `np.array_equal` -/
def arrayEqual [DecidableEq K] (a b : Nd1 K) : Bool :=
  decide (a.n = b.n) && (List.range a.n).all fun k => decide (a.get k = b.get k)

/-- `set_new_time_steps`, acados_ocp_solver.py:670-716: nothing happens if the steps are equal to those of the description;
otherwise the steps in C are set, or the solver is created again with them, and the description refers to the array of the
user -/
def setTs [DecidableEq K] (id : Nat) (s : Ts K) : Ts K :=
  if arrayEqual (s.objs s.desc) (s.objs id) then s
  else { s with cN := (s.objs id).n, cTs := raw (s.objs id), desc := id }

/-- `a[i] = x` in Python -/
def change (a : Nd1 K) (i : Nat) (x : K) : Nd1 K := { a with mem := Function.update a.mem (a.off + a.st * i) x }

/-- a step of a program; different arrays do not share memory -/
def step [DecidableEq K] (s : Ts K) : Op K → Ts K
  | .change id i x => { s with objs := Function.update s.objs id (change (s.objs id) i x) }
  | .set id => setTs id s

/-- a program -/
def run [DecidableEq K] (l : List (Op K)) (s : Ts K) : Ts K := l.foldl step s

/-- `AcadosOcpBatchSolver.constraints_set` with three dimensions, acados_ocp_batch_solver.py:717-732, and
`acados_batch_constraints_set`, acados_solver.in.c:3600-3625: each matrix is transposed and stored row by row; solver `b`
gets the part from `b * dim` on -/
def batchSet (f : Fld) (a : Nd3 K) (b : Nat) : Except Err (Buf K) :=
  let dim := f.dims.1 * (if f.dims.2 = 0 then 1 else f.dims.2)
  if a.n * dim ≠ a.n * (a.c * a.r) then .error .exit
  else .ok ⟨a.n * (a.c * a.r) - b * dim, fun k =>
    let q := k + b * dim
    a.get (q / (a.c * a.r)) (q % (a.c * a.r) % a.r) (q % (a.c * a.r) / a.r)⟩

end Acados.PyArr
