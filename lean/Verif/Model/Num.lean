import Mathlib.Data.Rat.Defs
import Mathlib.Algebra.Order.Field.Basic
import Mathlib.Algebra.Order.Ring.Rat
/-!
# Numbers

`double` is modelled in two ways.

* by an arbitrary linearly ordered field `K` (exact arithmetic, no rounding), or
* by `Dbl` below, which adds NaN and the infinities with the IEEE-754 comparison rules
  (every comparison with NaN is false).  Finite values are exact rationals; overflow, rounding and
  signed zeros are not modelled.

Model functions that are used with both are written against plain operation classes.
-/
namespace Acados

/-- IEEE-like double: NaN, the infinities, and exact finite values. -/
inductive Dbl where
  | nan
  | ninf
  | fin (q : Rat)
  | pinf
  deriving DecidableEq, Repr

namespace Dbl

def isnan : Dbl → Bool
  | nan => true
  | _ => false

def isinf : Dbl → Bool
  | pinf => true
  | ninf => true
  | _ => false

/-- sign of a non-NaN value as -1, 0, 1 -/
def sgn : Dbl → Int
  | nan => 0
  | ninf => -1
  | pinf => 1
  | fin q => if q < 0 then -1 else if q = 0 then 0 else 1

def ofSgn (s : Int) : Dbl := if s < 0 then ninf else if s = 0 then nan else pinf

def lt : Dbl → Dbl → Bool
  | nan, _ => false
  | _, nan => false
  | fin a, fin b => decide (a < b)
  | ninf, ninf => false
  | ninf, _ => true
  | _, ninf => false
  | pinf, _ => false
  | _, pinf => true

def le : Dbl → Dbl → Bool
  | nan, _ => false
  | _, nan => false
  | fin a, fin b => decide (a ≤ b)
  | ninf, _ => true
  | _, pinf => true
  | pinf, _ => false
  | _, ninf => false

def add : Dbl → Dbl → Dbl
  | nan, _ => nan
  | _, nan => nan
  | fin a, fin b => fin (a + b)
  | pinf, ninf => nan
  | ninf, pinf => nan
  | pinf, _ => pinf
  | _, pinf => pinf
  | ninf, _ => ninf
  | _, ninf => ninf

def neg : Dbl → Dbl
  | nan => nan
  | fin a => fin (-a)
  | pinf => ninf
  | ninf => pinf

def mul : Dbl → Dbl → Dbl
  | nan, _ => nan
  | _, nan => nan
  | fin a, fin b => fin (a * b)
  | a, b => ofSgn (a.sgn * b.sgn)

/-- division (zero is taken as +0) -/
def div : Dbl → Dbl → Dbl
  | nan, _ => nan
  | _, nan => nan
  | fin a, fin b =>
    if b = 0 then (if a = 0 then nan else if a < 0 then ninf else pinf) else fin (a / b)
  | fin _, _ => fin 0
  | a, fin b => if b = 0 then a else ofSgn (a.sgn * (fin b).sgn)
  | _, _ => nan

def abs : Dbl → Dbl
  | nan => nan
  | fin a => fin |a|
  | pinf => pinf
  | ninf => pinf

instance : LT Dbl := ⟨fun a b => lt a b = true⟩
instance : LE Dbl := ⟨fun a b => le a b = true⟩
instance : DecidableLT Dbl := fun a b => inferInstanceAs (Decidable (lt a b = true))
instance : DecidableLE Dbl := fun a b => inferInstanceAs (Decidable (le a b = true))
instance : Add Dbl := ⟨add⟩
instance : Neg Dbl := ⟨neg⟩
instance : Sub Dbl := ⟨fun a b => add a (neg b)⟩
instance : Mul Dbl := ⟨mul⟩
instance : Div Dbl := ⟨div⟩
instance : NatCast Dbl := ⟨fun n => fin n⟩
instance (n : Nat) : OfNat Dbl n := ⟨fin n⟩

end Dbl

/-- `#define MAX(a,b) (((a)>(b))?(a):(b))`, acados/utils/math.h:51. -/
def cmax {D : Type*} [LT D] [DecidableLT D] (a b : D) : D := if a > b then a else b
/-- `#define MIN(a,b) (((a)<(b))?(a):(b))`, acados/utils/math.h:50. -/
def cmin {D : Type*} [LT D] [DecidableLT D] (a b : D) : D := if a < b then a else b

theorem cmax_eq_max {K : Type*} [LinearOrder K] (a b : K) : cmax a b = max a b := by
  unfold cmax
  split
  · next h => exact (max_eq_left (le_of_lt h)).symm
  · next h => exact (max_eq_right (not_lt.1 h)).symm

theorem cmin_eq_min {K : Type*} [LinearOrder K] (a b : K) : cmin a b = min a b := by
  unfold cmin
  split
  · next h => exact (min_eq_left (le_of_lt h)).symm
  · next h => exact (min_eq_right (not_lt.1 h)).symm

/-- status codes, acados/utils/types.h:74-87 -/
inductive Status where
  | unknown | success | nanDetected | maxIter | minStep | qpFailure | ready | unbounded | timeout
  | qpscalingBounds | infeasible
  deriving DecidableEq, Repr

end Acados
