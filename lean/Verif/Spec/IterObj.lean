import Mathlib.Algebra.Order.Field.Basic
import Mathlib.Algebra.Order.Group.Abs

/-!
# Iterates

Fields of a primal-dual iterate, the sizes of a default iterate, and when two iterates are close.
-/

namespace Acados.IterObj

/-- Fields of an iterate. -/
inductive Fd
  | x | u | z | sl | su | pi | lam
  deriving DecidableEq

/-- Dimensions of an optimal control problem (`0`: initial, `e`: terminal stage). -/
structure Dims where
  N : ℕ
  nx : ℕ
  nu : ℕ
  nz : ℕ
  ns0 : ℕ
  ns : ℕ
  nse : ℕ
  nbu : ℕ
  nbx0 : ℕ
  nbx : ℕ
  nbxe : ℕ
  nh0 : ℕ
  nh : ℕ
  nhe : ℕ
  nphi0 : ℕ
  nphi : ℕ
  nphie : ℕ
  ng : ℕ
  nge : ℕ

/-- Slacks of stage `k`; a problem without intervals has a terminal stage only. -/
def Dims.slacks (d : Dims) (k : ℕ) : ℕ := if d.N ≤ k then d.nse else if k = 0 then d.ns0 else d.ns

/-- Constraints of stage `k`, bounds on slacks included. -/
def Dims.constr (d : Dims) (k : ℕ) : ℕ :=
  if d.N ≤ k then d.nbxe + d.nge + d.nhe + d.nphie + d.nse
  else if k = 0 then d.nbx0 + d.nbu + d.ng + d.nh0 + d.nphi0 + d.ns0
  else d.nbx + d.nbu + d.ng + d.nh + d.nphi + d.ns

/-- Number of stages of a field. -/
def Dims.stages (d : Dims) : Fd → ℕ
  | .x | .sl | .su | .lam => d.N + 1
  | .u | .z | .pi => d.N

/-- Number of entries of a field at stage `k`. -/
def Dims.size (d : Dims) : Fd → ℕ → ℕ
  | .x, _ => d.nx
  | .u, _ => d.nu
  | .z, _ => d.nz
  | .sl, k | .su, k => d.slacks k
  | .pi, _ => d.nx
  | .lam, k => 2 * d.constr k

/-- The default iterate: zero, except for the state if an initial state is given. -/
def Dims.default {K : Type*} [Zero K] (d : Dims) (x0 : Option (List K)) (f : Fd) : List (List K) :=
  (List.range (d.stages f)).map fun k =>
    match f, x0 with
    | .x, some v => v
    | _, _ => List.replicate (d.size f k) 0

/-- Two iterates have the same sizes. -/
def SameSize {K : Type*} (s o : Fd → List K) : Prop := ∀ f, (s f).length = (o f).length

/-- Two numbers are close in the sense of NumPy. -/
def near {K : Type*} [Field K] [LinearOrder K] (rtol atol a b : K) : Prop :=
  |a - b| ≤ atol + rtol * |b|

/-- Two flattened iterates are close: same sizes and close entries. -/
def Close {K : Type*} [Field K] [LinearOrder K] (rtol atol : K) (s o : Fd → List K) : Prop :=
  SameSize s o ∧ ∀ f (i : ℕ) a b, (s f)[i]? = some a → (o f)[i]? = some b → near rtol atol a b

end Acados.IterObj
