/-!
# Specification of flat trajectories (C46, C57)

The vectors of an iterate: inputs, states and slacks `(u, x, sl, su)` of a stage, algebraic variables, dynamics
multipliers and inequality multipliers.
-/
namespace Acados.Flat

/-- families of stage vectors -/
inductive Fam where
  | ux | z | pi | lam
deriving DecidableEq, Repr

/-- address of a number: family, stage, index in the stage vector -/
abbrev Adr := Fam × Nat × Nat

/-- problem dimensions -/
structure Dims where
  N : Nat
  nx : Nat → Nat
  nu : Nat → Nat
  nz : Nat → Nat
  ns : Nat → Nat
  ni : Nat → Nat

/-- fields a user reads and writes -/
inductive Field where
  | x | u | sl | su | s | z | pi | lam
deriving DecidableEq, Repr

/-- what a field of one stage is: number `i` of field `f` at stage `k` -/
def Field.place (d : Dims) (f : Field) (k i : Nat) : Adr :=
  match f with
  | .u => (.ux, k, i)
  | .x => (.ux, k, d.nu k + i)
  | .sl => (.ux, k, d.nu k + d.nx k + i)
  | .su => (.ux, k, d.nu k + d.nx k + d.ns k + i)
  | .s => (.ux, k, d.nu k + d.nx k + i)
  | .z => (.z, k, i)
  | .pi => (.pi, k, i)
  | .lam => (.lam, k, i)

/-- length of a field at a stage (`pi` of stage `k` belongs to the dynamics from `k` to `k+1`; lower and upper
multipliers) -/
def Field.len (d : Dims) (f : Field) (k : Nat) : Nat :=
  match f with
  | .u => d.nu k
  | .x => d.nx k
  | .sl | .su => d.ns k
  | .s => 2 * d.ns k
  | .z => d.nz k
  | .pi => d.nx (k + 1)
  | .lam => 2 * d.ni k

/-- number of stages that have the field -/
def Field.stages (d : Dims) (f : Field) : Nat :=
  match f with
  | .u | .z | .pi => d.N
  | _ => d.N + 1

/-- the flat trajectory: the stage vectors one after the other -/
def Field.flat {K : Type} (d : Dims) (f : Field) (val : Adr → K) : List K :=
  (List.range (f.stages d)).flatMap fun k => (List.range (f.len d k)).map fun i => val (f.place d k i)

end Acados.Flat
