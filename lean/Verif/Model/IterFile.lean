import Verif.Spec.IterFile
import Mathlib.Data.Nat.Digits.Defs
/-!
# Iterates as objects and in files

`/repo/interfaces/acados_template/acados_template/acados_ocp_iterate.py` lines 229-345 and `acados_ocp_solver.py` lines 1389-1422,
1602-1618, 1637-1650, 1984-2060 and 2415-2445.

Simplifications: a JSON file is the list of its keys and values in arbitrary order, numbers are written and read without change; a
key `field_stage` is a pair of the field and of the decimal digits of the stage (least significant first, with leading zeros);
keys of other form do not occur; reading and writing a field of a stage of the solver is what C46 shows of `ocp_nlp_out_get` and
`ocp_nlp_out_set`.
-/
namespace Acados.IterFile
variable {K : Type}

/-- `["x", "u", "z", "sl", "su", "pi", "lam"]` -/
def fields : List Fld := [.x, .u, .z, .sl, .su, .pi, .lam]

/-- `f'{n:0{l}d}'` -/
def stageStr (l n : Nat) : List Nat := Nat.digits 10 n ++ List.replicate (l - (Nat.digits 10 n).length) 0

/-- `int(stage_str)` -/
def stageNum (s : List Nat) : Nat := Nat.ofDigits 10 s

/-- `len(str(N+1))` -/
def strLen (N : Nat) : Nat := (Nat.digits 10 (N + 1)).length

abbrev Data (K : Type) := List ((Fld × List Nat) × List K)

/-- `AcadosOcpSolver.store_iterate`, lines 1407-1422: empty vectors are left out -/
def store (s : Solver K) : Data K :=
  (List.range (s.N + 1)).flatMap fun i => fields.filterMap fun f =>
    if (i < s.N ∨ f.atEnd = true) ∧ s.val i f ≠ [] then some ((f, stageStr (strLen s.N) i), s.val i f) else none

/-- `AcadosOcpSolver.set`, lines 2008-2060, for the fields of an iterate; `none`: an exception -/
def set [Mul K] (s : Solver K) (i : Nat) (f : Fld) (v : List K) : Option (Solver K) :=
  if i > s.N then none
  else if v.length ≠ s.dim i f then none
  else some { s with val := fun j g =>
    if j = i ∧ g = f then (if f = .lam then List.zipWith (· * ·) (s.mask i) v else v) else s.val j g }

/-- the outcome of a loop of `set`s: whether it came to its end, and the solver -/
def setLoop [Mul K] : List (Nat × Fld × List K) → Solver K → Bool × Solver K
  | [], s => (true, s)
  | (i, f, v) :: l, s => match set s i f v with
    | some s => setLoop l s
    | none => (false, s)

/-- `load_iterate`, lines 1616-1618 -/
def load [Mul K] (d : Data K) (s : Solver K) : Bool × Solver K := setLoop (d.map fun e => (stageNum e.1.2, e.1.1, e.2)) s

/-- `get_iterate(-1)`, lines 2433-2445 -/
def getIterate (s : Solver K) : Iterate K := fun f =>
  (List.range (s.N + 1)).filterMap fun n => if n < s.N ∨ f.atEnd = true then some (s.val n f) else none

/-- `set_iterate` with an `AcadosOcpIterate`, lines 1645-1650 -/
def setIterate [Mul K] (it : Iterate K) (s : Solver K) : Bool × Solver K :=
  setLoop (fields.flatMap fun f => (it f).zipIdx.map fun vn => (vn.2, f, vn.1)) s

/-- `AcadosOcpIterate.to_json`, lines 302-337; `N = len(x) - 1` -/
def toJson (it : Iterate K) : Data K :=
  (List.range (it .x).length).flatMap fun i =>
    let key (f : Fld) : Option ((Fld × List Nat) × List K) := match (it f)[i]? with
      | some v => if v ≠ [] then some ((f, stageStr (strLen ((it .x).length - 1)) i), v) else none
      | none => none
    [Fld.x, .sl, .su, .lam].filterMap key ++ if i + 1 < (it .x).length then [Fld.u, .z, .pi].filterMap key else []

/-- `data[key]` -/
def lookup (d : Data K) (k : Fld × List Nat) : Option (List K) := (d.find? fun e => e.1 = k).map (·.2)

/-- the largest stage, lines 275-282 -/
def maxStage (d : Data K) : Nat := d.foldl (fun m e => max m (stageNum e.1.2)) 0

/-- `AcadosOcpIterate.from_json`, lines 248-300; without any key the index `[0]` in line 289 raises -/
def fromJson (d : Data K) : Option (Iterate K) :=
  match d with
  | [] => none
  | e :: _ => some fun f => (List.range (maxStage d + 1)).flatMap fun i =>
    match lookup d (f, stageStr e.1.2.length i) with
    | some v => [v]
    | none => if i < maxStage d ∨ f.atEnd = true then [[]] else []

/-- one field of `flatten`, lines 229-238 -/
def flatten (it : Iterate K) (f : Fld) : List K := (it f).flatten

end Acados.IterFile
