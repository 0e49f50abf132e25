import Mathlib.Algebra.BigOperators.Group.Finset.Basic
import Mathlib.Algebra.BigOperators.Group.List.Basic
import Mathlib.Algebra.Ring.Defs
import Mathlib.Data.Finset.Range
import Mathlib.Order.Defs.LinearOrder
/-!
# Specification: matrices in compressed column form, and the problems OSQP and Clarabel solve (C47, C58)
-/
namespace Acados.Csc
open Finset
variable {K : Type*}

/-- compressed columns: column pointers, row indices, values -/
structure Csc (K : Type*) where
  p : List Nat
  i : List Nat
  x : List K

/-- the stored entries of column `c`: positions `p[c], …, p[c+1]-1` -/
def Csc.col (M : Csc K) (c : Nat) : List (Nat × K) :=
  ((M.i.zip M.x).take (M.p.getD (c + 1) 0)).drop (M.p.getD c 0)

/-- a well-formed `m × n` matrix -/
structure Csc.Valid (M : Csc K) (m n : Nat) : Prop where
  len : M.p.length = n + 1
  first : M.p.getD 0 0 = 0
  mono : ∀ c < n, M.p.getD c 0 ≤ M.p.getD (c + 1) 0
  last : M.p.getD n 0 = M.i.length
  vals : M.x.length = M.i.length
  rows : ∀ c < n, ∀ e ∈ M.col c, e.1 < m
  nodup : ∀ c < n, ((M.col c).map Prod.fst).Nodup

/-- row indices increase in every column -/
def Csc.Sorted (M : Csc K) (n : Nat) : Prop := ∀ c < n, ((M.col c).map Prod.fst).Pairwise (· < ·)

section
variable [Ring K]

/-- entry of the matrix -/
def Csc.entry (M : Csc K) (r c : Nat) : K := ((M.col c).map fun e => if e.1 = r then e.2 else 0).sum

/-- entry of the symmetric matrix of which only the upper triangle is stored -/
def Csc.symEntry (M : Csc K) (r c : Nat) : K := if r ≤ c then M.entry r c else M.entry c r

/-- `A v` -/
def Csc.mulVec (M : Csc K) (n : Nat) (v : Nat → K) (r : Nat) : K := ∑ c ∈ range n, M.entry r c * v c
/-- `Aᵀ y` -/
def Csc.mulTr (M : Csc K) (m : Nat) (y : Nat → K) (c : Nat) : K := ∑ r ∈ range m, M.entry r c * y r
/-- `P v` for a symmetric matrix stored as upper triangle -/
def Csc.symMul (M : Csc K) (n : Nat) (v : Nat → K) (r : Nat) : K := ∑ c ∈ range n, M.symEntry r c * v c

variable [LinearOrder K]

/-- the problem Clarabel solves: minimise `½ xᵀ P x + qᵀ x` subject to `b - A x` zero in the first `mEq` rows and
nonnegative in the others -/
structure ConeQp (K : Type*) where
  n : Nat
  m : Nat
  mEq : Nat
  P : Csc K
  q : Nat → K
  A : Csc K
  b : Nat → K

/-- optimality conditions of the cone problem -/
structure ConeQp.Kkt (D : ConeQp K) (x z : Nat → K) : Prop where
  stat : ∀ c < D.n, D.P.symMul D.n x c + D.q c + D.A.mulTr D.m z c = 0
  eq : ∀ r < D.mEq, D.A.mulVec D.n x r = D.b r
  ineq : ∀ r, D.mEq ≤ r → r < D.m → D.A.mulVec D.n x r ≤ D.b r
  dual : ∀ r, D.mEq ≤ r → r < D.m → 0 ≤ z r
  comp : ∀ r, D.mEq ≤ r → r < D.m → z r * (D.b r - D.A.mulVec D.n x r) = 0

/-- the problem OSQP solves: minimise `½ xᵀ P x + qᵀ x` subject to `l ≤ A x ≤ u`; `none`: no bound -/
structure BoxQp (K : Type*) where
  n : Nat
  m : Nat
  P : Csc K
  q : Nat → K
  A : Csc K
  l : Nat → Option K
  u : Nat → Option K

/-- optimality conditions of the box problem: a positive multiplier belongs to an active upper bound, a negative one to an
active lower bound -/
structure BoxQp.Kkt (D : BoxQp K) (x y : Nat → K) : Prop where
  stat : ∀ c < D.n, D.P.symMul D.n x c + D.q c + D.A.mulTr D.m y c = 0
  low : ∀ r < D.m, ∀ l, D.l r = some l → l ≤ D.A.mulVec D.n x r
  upp : ∀ r < D.m, ∀ u, D.u r = some u → D.A.mulVec D.n x r ≤ u
  neg : ∀ r < D.m, y r < 0 → D.l r = some (D.A.mulVec D.n x r)
  pos : ∀ r < D.m, 0 < y r → D.u r = some (D.A.mulVec D.n x r)

end

/-- sum of the lengths of the blocks before block `k` -/
def off (len : Nat → Nat) : Nat → Nat
  | 0 => 0
  | k + 1 => off len k + len k

end Acados.Csc
