import Verif.Model.Num
import Mathlib.Algebra.BigOperators.Intervals
import Mathlib.Algebra.Order.Field.Basic
/-!
# Butcher tableaus (`acados/sim/sim_collocation_utils.c`)

Column-major arrays `A[k * dim + r]` are functions `A r k` of row and column.  `double` is an arbitrary ordered
field; `pow(x, j)` with an integer exponent is the exact power.
-/
namespace Acados.Butcher
open Finset
variable {K : Type*} [Field K] [LinearOrder K]

/-- matrix and permutation of `lu_system_solve` -/
structure LuP (K : Type*) where
  A : Nat → Nat → K
  perm : Nat → Nat

/-- pivot search in column `i`, lines 78-88: the state is `(valueMax, indexMax)` -/
def pivot (dim i : Nat) (A : Nat → Nat → K) : Nat :=
  ((List.range' (i + 1) (dim - (i + 1))).foldl (fun (s : K × Nat) j =>
    if |A j i| > s.1 then (|A j i|, j) else s) (|A i i|, i)).2

/-- exchange of rows `i` and `m` of the matrix and of the permutation, lines 89-100 -/
def exchange (dim i m : Nat) (s : LuP K) : LuP K :=
  if m > i then
    { A := fun r k => if k < dim then (if r = i then s.A m k else if r = m then s.A i k else s.A r k) else s.A r k
      perm := Function.update (Function.update s.perm i (s.perm m)) m (s.perm i) }
  else s

/-- elimination below row `i`, lines 101-108; the double loop is written in closed form: it reads only row `i`,
which it does not write, and the multiplier of the same row -/
def eliminate (dim i : Nat) (A : Nat → Nat → K) : Nat → Nat → K := fun r k =>
  if i < r ∧ r < dim then
    if k = i then - A r i / A i i
    else if i < k ∧ k < dim then A r k + (- A r i / A i i) * A i k
    else A r k
  else A r k

/-- one step of the factorisation, lines 76-109 -/
def luStep (dim : Nat) (s : LuP K) (i : Nat) : LuP K :=
  let t := exchange dim i (pivot dim i s.A) s
  { t with A := eliminate dim i t.A }

/-- factorisation, lines 71-109 -/
def luFactor (dim : Nat) (A : Nat → Nat → K) : LuP K :=
  (List.range (dim - 1)).foldl (luStep dim) ⟨A, fun i => i⟩

/-- forward substitution with the negated multipliers, lines 119-129: row `j` accumulates the rows above it,
which are final; `B` has row index first -/
def forwardStep (A : Nat → Nat → K) (B : Nat → Nat → K) (j : Nat) : Nat → Nat → K := fun r k =>
  if r = j then B j k + ∑ i ∈ range j, A j i * B i k else B r k

/-- backward substitution, lines 130-145 -/
def backwardStep (dim : Nat) (A : Nat → Nat → K) (B : Nat → Nat → K) (i : Nat) : Nat → Nat → K := fun r k =>
  if r = i then 1 / A i i * (B i k - ∑ j ∈ Ico (i + 1) dim, A i j * B j k) else B r k

/-- `lu_system_solve`, lines 54-152: the returned right-hand side (`B r k` is entry `r` of column `k`) -/
def luSolve (dim : Nat) (A B : Nat → Nat → K) : Nat → Nat → K :=
  let f := luFactor dim A
  let b0 : Nat → Nat → K := fun r k => B (f.perm r) k
  let b1 := (List.range' 1 (dim - 1)).foldl (forwardStep f.A) b0
  (List.range dim).reverse.foldl (backwardStep dim f.A) b1

/-- `can_vm`, lines 502-505 -/
def vandermonde (nodes : Nat → K) : Nat → Nat → K := fun i j => nodes i ^ j

/-- `rhs` after `lu_system_solve`, lines 507-510: `rhs[i * ns + j]` is `coef ns nodes j i` -/
def coef (ns : Nat) (nodes : Nat → K) : Nat → Nat → K :=
  luSolve ns (vandermonde nodes) (fun r k => if r = k then 1 else 0)

/-- `A[i * ns + k]`, lines 512-522 -/
def tabA (ns : Nat) (nodes : Nat → K) (k i : Nat) : K :=
  ∑ j ∈ range ns, nodes k ^ (j + 1) / ((j : K) + 1) * coef ns nodes j i

/-- `b[i]`, lines 524-531 -/
def tabB (ns : Nat) (nodes : Nat → K) (i : Nat) : K :=
  ∑ j ∈ range ns, 1 / ((j : K) + 1) * coef ns nodes j i

/-- a tableau of given coefficients -/
structure Tab (K : Type*) where
  A : Nat → Nat → K
  b : Nat → K
  c : Nat → K

/-- `get_explicit_butcher_tableau`, lines 560-649; `none` is the error exit -/
def explicit (K : Type*) [Field K] : Nat → Option (Tab K)
  | 1 => some { A := fun _ _ => 0, b := fun _ => 1, c := fun _ => 0 }
  | 2 => some
    { A := fun i j => if i = 1 ∧ j = 0 then 1 / 2 else 0
      b := fun i => if i = 0 then 0 else 1
      c := fun i => if i = 0 then 0 else 1 / 2 }
  | 3 => some
    { A := fun i j => if i = 1 ∧ j = 0 then 1 / 2 else if i = 2 ∧ j = 0 then -1 else if i = 2 ∧ j = 1 then 2 else 0
      b := fun i => if i = 0 then 1 / 6 else if i = 1 then 2 / 3 else 1 / 6
      c := fun i => if i = 0 then 0 else if i = 1 then 1 / 2 else 1 }
  | 4 => some
    { A := fun i j => if i = 1 ∧ j = 0 then 1 / 2 else if i = 2 ∧ j = 1 then 1 / 2
        else if i = 3 ∧ j = 2 then 1 else 0
      b := fun i => if i = 0 then 1 / 6 else if i = 1 then 1 / 3 else if i = 2 then 1 / 3 else 1 / 6
      c := fun i => if i = 0 then 0 else if i = 1 then 1 / 2 else if i = 2 then 1 / 2 else 1 }
  | _ => none

/-- `gauss_radau_iia_nodes`, lines 248-333: the decimal literals of the code as exact rationals (the compiler
rounds them to double); `none` is the error exit -/
def radau : Nat → Option (List ℚ)
  | 1 => some [1]
  | 2 => some [33333333333333337034 / 10 ^ 20, 1]
  | 3 => some [15505102572168222297 / 10 ^ 20, 64494897427831787695 / 10 ^ 20, 1]
  | 4 => some [8858795951270420632 / 10 ^ 20, 40946686444073465694 / 10 ^ 20, 78765946176084700170 / 10 ^ 20, 1]
  | 5 => some [5710419611451822419 / 10 ^ 20, 27684301363812369168 / 10 ^ 20, 58359043236891683382 / 10 ^ 20,
      86024013565621926247 / 10 ^ 20, 1]
  | 6 => some [3980985705146905529 / 10 ^ 20, 19801341787360787761 / 10 ^ 20, 43797481024738621480 / 10 ^ 20,
      69546427335363603106 / 10 ^ 20, 90146491420117347282 / 10 ^ 20, 1]
  | 7 => some [2931642715978521885 / 10 ^ 20, 14807859966848435640 / 10 ^ 20, 33698469028115418666 / 10 ^ 20,
      55867151877155019069 / 10 ^ 20, 76923386203005450490 / 10 ^ 20, 92694567131974103802 / 10 ^ 20, 1]
  | 8 => some [2247938643871305597 / 10 ^ 20, 11467905316090415413 / 10 ^ 20, 26578982278458951338 / 10 ^ 20,
      45284637366944457959 / 10 ^ 20, 64737528288683043876 / 10 ^ 20, 81975930826310761113 / 10 ^ 20,
      94373743946307731001 / 10 ^ 20, 1]
  | 9 => some [1777991514736393386 / 10 ^ 20, 9132360789979432347 / 10 ^ 20, 21430847939563035798 / 10 ^ 20,
      37193216458327238438 / 10 ^ 20, 54518668480342658000 / 10 ^ 20, 71317524285556954666 / 10 ^ 20,
      85563374295785443735 / 10 ^ 20, 95536604471003006012 / 10 ^ 20, 1]
  | _ => none

/-- the columns of `lgvm` for one node `y`, lines 219-227: row `k` of the three-term recurrence -/
def lgvm (y : K) : Nat → K
  | 0 => 1
  | 1 => y
  | k + 2 => ((2 * ((k : K) + 2) - 1) * y * lgvm y (k + 1) - ((k : K) + 2 - 1) * lgvm y k) / ((k : K) + 2)

/-- `der_lgvm`, lines 228-229, with `N1 = ns`, `N2 = ns + 1`, `N = ns - 1` -/
def derLgvm (ns : Nat) (y : K) : K :=
  ((ns : K) + 1) * (lgvm y (ns - 1) - y * lgvm y ns) / (1 - y ^ 2)

/-- the update of one node, lines 230-233 -/
def nodeStep (ns : Nat) (y : K) : K := y - lgvm y ns / derLgvm ns y

/-- the affine map to `[0,1]`, lines 241-242 with `a = 0`, `b = 1` -/
def nodeMap (y : K) : K := 0 * (1 - y) + 1 / 2 * 1 * (1 + y)

end Acados.Butcher
