import Verif.Spec.QpDump
import Mathlib.Data.Nat.Digits.Defs
/-!
# Writing the last QP to a file and loading it

`interfaces/acados_c/ocp_nlp_interface.c` lines 2165-2374: `_write_json`, `ocp_nlp_dump_last_qp_to_json`;
`interfaces/acados_template/acados_template/acados_ocp_solver.py` lines 1554-1577: `get_last_qp`;
`interfaces/acados_template/acados_template/acados_ocp_qp.py` lines 256-271, 294-379, 381-441: `set`, `make_consistent`, `from_dict`, `from_json`.

A file is the list of its keys and arrays; writing and parsing numbers is a function `rnd` on the values of real fields (`%.10e` in C).
Arrays read from a file are two-dimensional.
-/
namespace Acados.QpDump
variable {K : Type} [Field K] [LinearOrder K]

/-- names, ocp_nlp_interface.c:2223-2227 -/
def F.name : F → List Char
  | .A => ['A'] | .B => ['B'] | .b => ['b'] | .Q => ['Q'] | .R => ['R'] | .S => ['S'] | .q => ['q'] | .r => ['r']
  | .zl => ['z', 'l'] | .zu => ['z', 'u'] | .Zl => ['Z', 'l'] | .Zu => ['Z', 'u'] | .C => ['C'] | .D => ['D']
  | .lg => ['l', 'g'] | .ug => ['u', 'g'] | .lbx => ['l', 'b', 'x'] | .ubx => ['u', 'b', 'x'] | .lbu => ['l', 'b', 'u'] | .ubu => ['u', 'b', 'u']
  | .lls => ['l', 'l', 's'] | .lus => ['l', 'u', 's']
  | .lgM => ['l', 'g', '_', 'm', 'a', 's', 'k'] | .ugM => ['u', 'g', '_', 'm', 'a', 's', 'k']
  | .lbxM => ['l', 'b', 'x', '_', 'm', 'a', 's', 'k'] | .ubxM => ['u', 'b', 'x', '_', 'm', 'a', 's', 'k']
  | .lbuM => ['l', 'b', 'u', '_', 'm', 'a', 's', 'k'] | .ubuM => ['u', 'b', 'u', '_', 'm', 'a', 's', 'k']
  | .llsM => ['l', 'l', 's', '_', 'm', 'a', 's', 'k'] | .lusM => ['l', 'u', 's', '_', 'm', 'a', 's', 'k']
  | .idxs => ['i', 'd', 'x', 's'] | .idxb => ['i', 'd', 'x', 'b'] | .idxsRev => ['i', 'd', 'x', 's', '_', 'r', 'e', 'v'] | .idxe => ['i', 'd', 'x', 'e']

/-- `_qp_fields`, ocp_nlp_interface.c:2223-2227 -/
def fields : List F :=
  [.A, .B, .b, .Q, .R, .S, .q, .r, .zl, .zu, .Zl, .Zu, .C, .D, .lg, .ug, .lbx, .ubx, .lbu, .ubu, .lls, .lus,
   .lgM, .ugM, .lbxM, .ubxM, .lbuM, .ubuM, .llsM, .lusM, .idxs, .idxb, .idxsRev, .idxe]

/-- decimal representation of a number -/
def str (n : Nat) : List Char := if n = 0 then ['0'] else ((Nat.digits 10 n).map Nat.digitChar).reverse

/-- number padded with zeros: `%0*d`, `{i:0{lN}d}` -/
def pad (w n : Nat) : List Char := List.replicate (w - (str n).length) '0' ++ str n

/-- key of a field at a stage, ocp_nlp_interface.c:2366, acados_ocp_solver.py:1564 -/
def key (w : Nat) (f : F) (k : Nat) : List Char := f.name ++ '_' :: pad w k

/-- a two-dimensional array -/
structure Mat (K : Type) where
  rows : Nat
  cols : Nat
  e : Nat → Nat → K

/-- `size1`, `size2`, ocp_nlp_interface.c:2253-2360 (`nb = nbu + nbx`, `idxe` has `nbxe + nbue + nge` entries) -/
def size (d : Dims) (f : F) (k : Nat) : Nat × Nat :=
  match f with
  | .A => (d.nx (k + 1), d.nx k)
  | .B => (d.nx (k + 1), d.nu k)
  | .b => (1, d.nx (k + 1))
  | .Q => (d.nx k, d.nx k)
  | .R => (d.nu k, d.nu k)
  | .S => (d.nu k, d.nx k)
  | .q => (1, d.nx k)
  | .r => (1, d.nu k)
  | .zl | .zu | .Zl | .Zu => (d.ns k, 1)
  | .C => (d.ng k, d.nx k)
  | .D => (d.ng k, d.nu k)
  | .lg | .ug | .lgM | .ugM => (d.ng k, 1)
  | .lbx | .ubx | .lbxM | .ubxM => (d.nbx k, 1)
  | .lbu | .ubu | .lbuM | .ubuM => (d.nbu k, 1)
  | .lls | .lus | .llsM | .lusM => (d.ns k, 1)
  | .idxs => (d.ns k, 1)
  | .idxb => (d.nbu k + d.nbx k, 1)
  | .idxsRev => (1, d.nbu k + d.nbx k + d.ng k)
  | .idxe => (d.ne k, 1)

/-- the buffer: matrices in column-major order, vectors one after the other; `get_from_qp_in` of HPIPM -/
def buffer (d : Dims) (v : Data K) (f : F) (k i : Nat) : K :=
  if f.isMat then v f k (i % d.rows f k) (i / d.rows f k) else v f k i 0

/-- what is written for a field, `_write_json`, ocp_nlp_interface.c:2165-2210 -/
def entry (rnd : K → K) (d : Dims) (v : Data K) (f : F) (k : Nat) : Mat K :=
  let s := size d f k
  ⟨s.1, s.2, fun r c => if f.isInt then buffer d v f k (c * s.1 + r) else rnd (buffer d v f k (c * s.1 + r))⟩

/-- whether a field is written at a stage, ocp_nlp_interface.c:2255-2268 and 2362-2363 -/
def written (d : Dims) (f : F) (k : Nat) : Bool :=
  !(f.isDyn && k == d.N) && (size d f k).1 * (size d f k).2 != 0

/-- the file, ocp_nlp_interface.c:2249-2371, with stages padded to width `w` -/
def dump (w : Nat) (rnd : K → K) (d : Dims) (v : Data K) : List (List Char × Mat K) :=
  fields.flatMap fun f => (List.range (d.N + 1)).flatMap fun k => if written d f k then [(key w f k, entry rnd d v f k)] else []

/-- C: width of `N`, ocp_nlp_interface.c:2246 -/
def dumpC (rnd : K → K) (d : Dims) (v : Data K) : List (List Char × Mat K) := dump (str d.N).length rnd d v

/-- Python: width of `N + 1`, acados_ocp_solver.py:1561 (the order of the keys differs and is irrelevant for a dictionary) -/
def dumpPy (d : Dims) (v : Data K) : List (List Char × Mat K) := dump (str (d.N + 1)).length id d v

/-- number of entries the buffer has room for, ocp_nlp_interface.c:2220 -/
def bufferSize (nbxT niT nxT nuT : Nat) : Nat := (nbxT + niT + nxT + nuT) * (nbxT + niT + nxT + nuT)

/-- `k.split('_')[-1]` -/
def lastPart (k : List Char) : List Char := (k.reverse.takeWhile (· != '_')).reverse

/-- `s.isdigit()` -/
def isdigit (s : List Char) : Bool := !s.isEmpty && s.all fun c => decide ('0' ≤ c ∧ c ≤ '9')

/-- look up in a dictionary -/
def find (l : List (List Char × Mat K)) (k : List Char) : Option (Mat K) := (l.find? fun q => q.1 == k).map (·.2)

/-- `set`, acados_ocp_qp.py:256-271, utils.py:491-494: vectors are flattened row by row -/
def store (f : F) (m : Mat K) : Mat K :=
  if f.isMat then m else ⟨m.rows * m.cols, 1, fun i _ => m.e (i / m.cols) (i % m.cols)⟩

/-- `np.zeros((0, 0))` -/
def empty : Mat K := ⟨0, 0, fun _ _ => 0⟩

/-- a loaded QP -/
structure Qp (K : Type) where
  N : Nat
  get : F → Nat → Mat K

/-- dimensions found by `make_consistent`, acados_ocp_qp.py:310-314, 332-337, 367-371 -/
def dimsOf (q : Qp K) : Dims where
  N := q.N
  nx k := (q.get .Q k).rows
  nu k := (q.get .R k).rows
  nbx k := (q.get .lbx k).rows
  nbu k := (q.get .lbu k).rows
  ng k := (q.get .lg k).rows
  ns k := (q.get .lls k).rows
  ne k := (q.get .idxe k).rows

/-- assertions of `make_consistent` for a stage, acados_ocp_qp.py:316-379 -/
def stageOk (q : Qp K) (k : Nat) : Bool :=
  let d := dimsOf q
  let n f := (q.get f k).rows
  (n .q == d.nx k) && (n .r == d.nu k) && (d.nu k == 0 || (n .S == d.nu k && (q.get .S k).cols == d.nx k))
  && (decide (q.N ≤ k) || ((k == 0 || d.nx k == (q.get .A (k - 1)).rows) && n .B == n .A && n .b == n .A))
  && (n .idxb == d.nbx k + d.nbu k) && (n .C == d.ng k) && (decide (q.N ≤ k) || n .D == d.ng k)
  && (d.ng k == 0 || ((q.get .C k).cols == d.nx k && (decide (q.N ≤ k) || (q.get .D k).cols == d.nu k)))
  && (n .idxsRev == d.nbx k + d.nbu k + d.ng k)
  && (n .zl == d.ns k) && (n .zu == d.ns k) && (n .Zl == d.ns k) && (n .Zu == d.ns k)
  && (n .lbuM == d.nbu k) && (n .ubuM == d.nbu k) && (n .lbxM == d.nbx k) && (n .ubxM == d.nbx k)
  && (n .lgM == d.ng k) && (n .ugM == d.ng k) && (n .llsM == d.ns k) && (n .lusM == d.ns k)
  && (d.ne k == 0 || (decide (d.ne k ≤ d.nbx k + d.nbu k)
    && (List.range (d.ne k)).all fun i => decide ((d.nbu k : K) ≤ (q.get .idxe k).e i 0 ∧ (q.get .idxe k).e i 0 < ((d.nbx k + d.nbu k : Nat) : K))))

/-- `from_dict`, acados_ocp_qp.py:381-416; `none` is an exception (a file without any `Q`, whose horizon would be negative, is
refused here) -/
def load (l : List (List Char × Mat K)) : Option (Qp K) :=
  let n := (l.filter fun q => ['Q', '_'].isPrefixOf q.1).length
  if n = 0 then none
  else
    let N := n - 1
    let lN := (str (N + 1)).length
    if l.any fun q => isdigit (lastPart q.1) && (lastPart q.1).length != lN then none
    else
      let q : Qp K := ⟨N, fun f k => ((find l (key lN f k)).map (store f)).getD (store f empty)⟩
      if (List.range (N + 1)).all (stageOk q) then some q else none

end Acados.QpDump
