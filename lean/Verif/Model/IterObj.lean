import Verif.Spec.IterObj
import Mathlib.Order.Defs.LinearOrder

/-!
# Iterates as Python objects

`interfaces/acados_template/acados_template/acados_ocp.py` lines 2682-2714:
`create_default_initial_iterate`;
`interfaces/acados_template/acados_template/acados_ocp_iterate.py`: flattened iterates, batches of
them, `flatten`, `allclose`.

Arrays are addresses in a memory, as two stages may hold the same array. Not modelled: NaN.
-/

namespace Acados.IterObj

/-- Arrays by address; addresses from `next` on are free. -/
structure Mem (K : Type*) where
  next : ℕ
  arr : ℕ → List K

section
variable {K : Type*} [Field K] [LinearOrder K]

omit [LinearOrder K] in
/-- `np.zeros` of all arrays of the default iterate, acados_ocp.py:2692-2703. The array at `next` is
not created if an initial state is given, which has no effect. -/
def zeros (d : Dims) (m : Mem K) : Mem K where
  next := m.next + 13
  arr := fun a =>
    let new := fun n : ℕ => List.replicate n (0 : K)
    if a < m.next then m.arr a
    else match a - m.next with
    | 0 => new d.nx
    | 1 => new d.nu
    | 2 => new d.nz
    | 3 => new d.ns0
    | 4 => new d.ns
    | 5 => new d.nse
    | 6 => new d.ns0
    | 7 => new d.ns
    | 8 => new d.nse
    | 9 => new d.nx
    | 10 => new (2 * (d.nbu + d.nbx0 + d.nh0 + d.nphi0 + d.ng + d.ns0))
    | 11 => new (2 * (d.nbu + d.nbx + d.nh + d.nphi + d.ng + d.ns))
    | 12 => new (2 * (d.nbxe + d.nhe + d.nphie + d.nge + d.nse))
    | _ => m.arr a

/-- Lists of arrays of the default iterate, acados_ocp.py:2689-2703; `x0` is the address of
`constraints.x0`, which is `lbx_0` and `ubx_0` (acados_ocp_constraints.py:1209-1210, 1229-1231). -/
def create (d : Dims) (x0 : Option ℕ) (next : ℕ) : Fd → List ℕ
  | .x => List.replicate (d.N + 1) (x0.getD next)
  | .u => List.replicate d.N (next + 1)
  | .z => List.replicate d.N (next + 2)
  | .sl => [next + 3] ++ List.replicate (d.N - 1) (next + 4) ++ [next + 5]
  | .su => [next + 6] ++ List.replicate (d.N - 1) (next + 7) ++ [next + 8]
  | .pi => List.replicate d.N (next + 9)
  | .lam => [next + 10] ++ List.replicate (d.N - 1) (next + 11) ++ [next + 12]

/-- Values of an iterate. -/
def values (m : Mem K) (o : Fd → List ℕ) (f : Fd) : List (List K) := (o f).map m.arr

/-- `iterate.f[k][i] = v`: the array is changed in place. -/
def write (m : Mem K) (o : Fd → List ℕ) (f : Fd) (k i : ℕ) (v : K) : Mem K :=
  { m with arr := fun a => if (o f)[k]? = some a then (m.arr a).set i v else m.arr a }

/-- `iterate.f[k] = array`: the list is changed, to a new array. -/
def replace (m : Mem K) (o : Fd → List ℕ) (f : Fd) (k : ℕ) (v : List K) :
    Mem K × (Fd → List ℕ) :=
  (⟨m.next + 1, fun a => if a = m.next then v else m.arr a⟩,
    fun g => if g = f then (o g).set k m.next else o g)

/-- A flattened iterate, acados_ocp_iterate.py:39-51. -/
abbrev Flat (K : Type*) := Fd → List K

/-- `flatten`, acados_ocp_iterate.py:229-238; `np.concatenate` of no arrays is an exception. -/
def flatten (s : Fd → List (List K)) : Option (Flat K) :=
  if [Fd.x, .sl, .su, .lam].any (fun f => (s f).isEmpty) then none else some fun f => (s f).flatten

/-- Elementwise operations of NumPy on vectors: arrays with one element are repeated; `none` is an
exception. -/
def broadcast {β : Type*} (op : K → K → β) (a b : List K) : Option (List β) :=
  if a.length = b.length then some (List.zipWith op a b)
  else match a, b with
  | [v], _ => some (b.map (op v))
  | _, [w] => some (a.map (fun v => op v w))
  | _, _ => none

/-- `np.allclose` -/
def allcloseArr (rtol atol : K) (a b : List K) : Option Bool :=
  (broadcast (fun v w => decide (|v - w| ≤ atol + rtol * |w|)) a b).map (fun l => l.all id)

/-- Order of the fields, acados_ocp_iterate.py:56-63. -/
def fields : List Fd := [.x, .u, .z, .sl, .su, .pi, .lam]

/-- `and` evaluates fields up to the first `False`. -/
def andAll (g : Fd → Option Bool) : List Fd → Option Bool
  | [] => some true
  | f :: fs => (g f).bind fun b => if b then andAll g fs else some false

/-- `allclose` of flattened iterates, acados_ocp_iterate.py:53-64. -/
def allclose (rtol atol : K) (s o : Flat K) : Option Bool :=
  andAll (fun f => allcloseArr rtol atol (s f) (o f)) fields

/-- `allclose` of iterates that are not flattened, acados_ocp_iterate.py:240-245. -/
def allcloseStages (rtol atol : K) (s o : Fd → List (List K)) : Option Bool :=
  (flatten s).bind fun a => (flatten o).bind fun b => allclose rtol atol a b

/-- `__add__`, `__sub__`, acados_ocp_iterate.py:66-90; `none` is an exception. -/
def arith (op : K → K → K) (s o : Flat K) : Option (Flat K) :=
  if fields.all (fun f => (broadcast op (s f) (o f)).isSome) then
    some fun f => (broadcast op (s f) (o f)).getD []
  else none

/-- `inf_norm`, acados_ocp_iterate.py:92-96; the maximum of an empty array is an exception. -/
def infNorm (s : Flat K) : Option K :=
  match (fields.flatMap s).map (fun v => |v|) with
  | [] => none
  | v :: vs => some (vs.foldl max v)

/-- Index of NumPy for an array of `n` rows. -/
def rowIdx (n : ℕ) (i : ℤ) : Option ℕ :=
  if 0 ≤ i ∧ i < n then some i.toNat
  else if -(n : ℤ) ≤ i ∧ i < 0 then some (i + n).toNat else none

/-- `__getitem__` of a batch of `n`, acados_ocp_iterate.py:114-126. -/
def getItem (n : ℕ) (b : Fd → List (List K)) (i : ℤ) : Option (Flat K) :=
  (rowIdx n i).map fun j f => ((b f)[j]?).getD []

/-- A row that is assigned: one element is repeated. -/
def assignRow (old v : List K) : Option (List K) :=
  if v.length = old.length then some v
  else match v with
  | [w] => some (old.map fun _ => w)
  | _ => none

/-- `__setitem__`, acados_ocp_iterate.py:128-135; `none` is an exception. -/
def setItem (n : ℕ) (b : Fd → List (List K)) (i : ℤ) (v : Flat K) : Option (Fd → List (List K)) :=
  match rowIdx n i with
  | none => none
  | some j =>
    if fields.all (fun f => (assignRow (((b f)[j]?).getD []) (v f)).isSome) then
      some fun f => (b f).set j ((assignRow (((b f)[j]?).getD []) (v f)).getD [])
    else none

end

end Acados.IterObj
