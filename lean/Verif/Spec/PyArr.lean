import Mathlib.Data.Int.Notation
import Mathlib.Logic.Function.Basic

/-!
# Arrays of numpy

An array is a view of memory: element `i` (or `i, j`) lies at an offset plus multiples of the strides.  What the user means
by an array are its elements, whatever the strides.
-/

namespace Acados.PyArr

/-- an array with one dimension -/
structure Nd1 (K : Type) where
  mem : Int → K
  off : Int
  n : Nat
  st : Int

/-- element `a[i]` -/
def Nd1.get {K : Type} (a : Nd1 K) (i : Nat) : K := a.mem (a.off + a.st * i)

/-- an array with two dimensions -/
structure Nd2 (K : Type) where
  mem : Int → K
  off : Int
  r : Nat
  c : Nat
  sr : Int
  sc : Int

/-- element `a[i, j]` -/
def Nd2.get {K : Type} (a : Nd2 K) (i j : Nat) : K := a.mem (a.off + a.sr * i + a.sc * j)

/-- an array with three dimensions (its strides do not matter) -/
structure Nd3 (K : Type) where
  n : Nat
  r : Nat
  c : Nat
  get : Nat → Nat → Nat → K

/-- the fields of the modules in C: vectors and matrices -/
inductive Fld
  | vec (n : Nat)
  | mat (r c : Nat)
  deriving DecidableEq

/-- what C gets is a buffer with a length -/
structure Buf (K : Type) where
  len : Nat
  val : Nat → K

/-- an access in C; `none`: out of bounds -/
def Buf.at? {K : Type} (b : Buf K) (k : Nat) : Option K := if k < b.len then some (b.val k) else none

/-- the buffer holds the vector -/
def HoldsVec {K : Type} (b : Buf K) (n : Nat) (x : Nat → K) : Prop := ∀ i < n, b.at? i = some (x i)

/-- the buffer holds the matrix column by column -/
def HoldsMat {K : Type} (b : Buf K) (r c : Nat) (x : Nat → Nat → K) : Prop :=
  ∀ i < r, ∀ j < c, b.at? (i + r * j) = some (x i j)

/-- number of entries C reads for a field -/
def Fld.count : Fld → Nat
  | .vec n => n
  | .mat r c => r * c

/-- a program with arrays of time steps: it changes them in place, and passes them to the solver -/
inductive Op (K : Type)
  | change (id : Nat) (i : Nat) (x : K)
  | set (id : Nat)

/-- arrays that have been passed to the solver, and `d`, are not changed afterwards -/
def Careful {K : Type} (d : Nat) (l : List (Op K)) : Prop :=
  ∀ l1 l2 id i x, l = l1 ++ .change id i x :: l2 → id ≠ d ∧ .set id ∉ l1

/-- the solver has the `n` steps `t`, which are those of the array -/
def InUse {K : Type} (n : Nat) (t : Nat → K) (a : Nd1 K) : Prop := n = a.n ∧ ∀ k < n, t k = a.get k

end Acados.PyArr
