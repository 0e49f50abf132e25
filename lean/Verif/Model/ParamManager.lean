import Verif.Spec.ParamManager
/-!
# Management of parameters

`interfaces/acados_template/acados_template/acados_param_manager.py`: `AcadosParamManager`.

Arrays are objects: `heap` maps references to values, dictionaries map names to references.  Simplifications: the values given at
construction are two-dimensional arrays (`cast_to_2d_nparray` keeps the object and raises otherwise); a CasADi symbol is its name and
shape.
-/
namespace Acados.ParamManager
variable {ν K : Type} [DecidableEq ν]

/-- the manager and the memory; `next`: first reference not in use -/
structure St (ν K : Type) where
  heap : Nat → Val K
  next : Nat
  params : List (ν × Nat)
  values : List (List (ν × Nat))
  syms : List (ν × Nat × Nat)
  N : Nat

/-- `d[name] = v` for an ordered dictionary -/
def dset {β : Type} (d : List (ν × β)) (name : ν) (v : β) : List (ν × β) :=
  if d.any (fun e => decide (e.1 = name)) then d.map fun e => if e.1 = name then (name, v) else e else d ++ [(name, v)]

/-- `d[name]`; `none`: `KeyError` -/
def dget {β : Type} (d : List (ν × β)) (name : ν) : Option β := (d.find? fun e => decide (e.1 = name)).map (·.2)

/-- `self._param_values.append(deepcopy(self._param_values[0]))`, lines 78 and 99; objects that occur twice are copied once -/
def appendCopy (s : St ν K) : St ν K :=
  let d := s.values.headD []
  let refs := d.map (·.2)
  { s with
    heap := fun a => if s.next ≤ a ∧ a < s.next + refs.length then s.heap (refs.getD (a - s.next) 0) else s.heap a
    next := s.next + refs.length
    values := s.values ++ [d.map fun e => (e.1, s.next + refs.idxOf e.2)] }

/-- `for _ in range(n)` -/
def appendCopies : Nat → St ν K → St ν K
  | 0, s => s
  | n + 1, s => appendCopies n (appendCopy s)

/-- `__init__`, lines 51-80 -/
def init (heap : Nat → Val K) (next : Nat) (params : List (ν × Nat)) (N : Nat) : St ν K :=
  let s : St ν K := ⟨heap, next, params, [params.foldl (fun d p => dset d p.1 p.2) []],
    params.foldl (fun d p => dset d p.1 ((heap p.2).rows, (heap p.2).cols)) [], 0⟩
  { appendCopies N s with N := N }

/-- lines 102-104: `for p in params: for n in range(lo, hi): self._param_values[n][p.name] = p.value` -/
def defaults (params : List (ν × Nat)) (lo hi : Nat) (values : List (List (ν × Nat))) : List (List (ν × Nat)) :=
  params.foldl (fun vs p => vs.zipIdx.map fun dn => if lo ≤ dn.2 ∧ dn.2 < hi then dset dn.1 p.1 p.2 else dn.1) values

/-- the setter of `N_horizon`, lines 88-106; `none`: `ValueError` -/
def setHorizon (s : St ν K) (n : Int) : Option (St ν K) :=
  if n < 0 then none
  else
    let s1 := appendCopies (n.toNat - (s.values.length - 1)) s
    some { s1 with values := defaults s1.params s1.N n.toNat s1.values, N := n.toNat }

/-- lines 117-118, 136-137 and 148-149: `none`: `IndexError` -/
def dictAt (s : St ν K) (stage : Int) : Option (List (ν × Nat)) :=
  if stage > s.N ∨ stage < 0 then none else s.values[stage.toNat]?

/-- `get_value`, lines 109-119: the array -/
def getRef (s : St ν K) (name : ν) (stage : Int) : Option Nat := (dictAt s stage).bind (dget · name)

/-- `get_value`, its value -/
def getValue (s : St ν K) (name : ν) (stage : Int) : Option (Val K) := (getRef s name stage).map s.heap

/-- `set_value`, lines 131-140: the array `r` itself is stored -/
def setRef (s : St ν K) (name : ν) (r : Nat) (stage : Int) : Option (St ν K) :=
  (dictAt s stage).map fun d => { s with values := s.values.set stage.toNat (dset d name r) }

/-- a new array of the user -/
def alloc (s : St ν K) (v : Val K) : St ν K := { s with heap := fun a => if a = s.next then v else s.heap a, next := s.next + 1 }

/-- an array is changed in place -/
def inPlace (s : St ν K) (r : Nat) (v : Val K) : St ν K := { s with heap := fun a => if a = r then v else s.heap a }

/-- `get_p_stagewise_values`, lines 143-152 -/
def pValues (s : St ν K) (stage : Int) : Option (List K) := (dictAt s stage).map fun d => (d.map fun e => (s.heap e.2).vec).flatten

/-- `get_p_stagewise_values_flat`, lines 155-161 -/
def pFlat (s : St ν K) : Option (List K) := ((List.range (s.N + 1)).mapM fun i : Nat => pValues s (i : Int)).map List.flatten

/-- an operation of the user; after an exception nothing has changed -/
def step (s : St ν K) : Op ν K → St ν K
  | .set name v stage => (setRef (alloc s v) name s.next stage).getD s
  | .horizon n => (setHorizon s n).getD s

/-- a history -/
def run (s : St ν K) : List (Op ν K) → St ν K
  | [] => s
  | o :: l => run (step s o) l

end Acados.ParamManager
