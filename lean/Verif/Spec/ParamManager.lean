import Mathlib.Data.List.Basic
/-!
# Management of parameters: what the values and the layout should be
-/
namespace Acados.ParamManager

/-- a matrix: shape and entries, column after column -/
structure Val (K : Type) where
  rows : Nat
  cols : Nat
  vec : List K
  deriving DecidableEq

/-- operations of a user, each with a new array -/
inductive Op (ν K : Type)
  | set (name : ν) (v : Val K) (stage : Int)
  | horizon (n : Int)

/-- the horizon after an operation: negative lengths are refused -/
def Op.horizonAfter {ν K : Type} (N : Nat) : Op ν K → Nat
  | .set _ _ _ => N
  | .horizon n => if n < 0 then N else n.toNat

/-- values per stage and name: setting a value at an existing stage changes this value only, other operations change none -/
def Op.table {ν K : Type} [DecidableEq ν] (N : Nat) (T : Nat → ν → Val K) : Op ν K → (Nat → ν → Val K)
  | .set name v stage => fun i m => if (i : Int) = stage ∧ m = name ∧ i ≤ N then v else T i m
  | .horizon _ => T

/-- values after a history that starts with horizon `N` -/
def tableAfter {ν K : Type} [DecidableEq ν] : Nat → (Nat → ν → Val K) → List (Op ν K) → (Nat → ν → Val K)
  | _, T, [] => T
  | N, T, o :: l => tableAfter (o.horizonAfter N) (o.table N T) l

/-- the horizon after a history -/
def horizonAfter {ν K : Type} : Nat → List (Op ν K) → Nat
  | N, [] => N
  | N, o :: l => horizonAfter (o.horizonAfter N) l

/-- the horizon never grows -/
def NoGrowth {ν K : Type} : Nat → List (Op ν K) → Prop
  | _, [] => True
  | N, o :: l => o.horizonAfter N ≤ N ∧ NoGrowth (o.horizonAfter N) l

/-- only the horizon is changed -/
def OnlyHorizon {ν K : Type} (l : List (Op ν K)) : Prop := ∀ o ∈ l, ∃ n, o = .horizon n

/-- names are known and sizes are those of the symbols -/
def Fits {ν K : Type} (syms : List (ν × Nat × Nat)) : Op ν K → Prop
  | .set name v _ => ∃ r c, (name, r, c) ∈ syms ∧ v.vec.length = r * c
  | .horizon _ => True

/-- number of entries before those of a symbol in the vector of all symbols -/
def offset {ν : Type} [DecidableEq ν] (name : ν) : List (ν × Nat × Nat) → Nat
  | [] => 0
  | s :: l => if s.1 = name then 0 else s.2.1 * s.2.2 + offset name l

/-- number of entries of the vector of all symbols -/
def total {ν : Type} (syms : List (ν × Nat × Nat)) : Nat := (syms.map fun s => s.2.1 * s.2.2).sum

end Acados.ParamManager
