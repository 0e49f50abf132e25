import Mathlib.Algebra.Order.Field.Basic
import Mathlib.Order.Bounds.Basic
import Mathlib.Algebra.BigOperators.Group.List.Basic
/-!
# Cost with softened constraints: what it is
-/
namespace Acados.Evaluator
variable {K : Type} [Field K] [LinearOrder K]

/-- a softened constraint at a point: its value, bounds and the weights of its slacks -/
structure Soft (K : Type) where
  val : K
  lb : K
  ub : K
  zl : K
  Zl : K
  zu : K
  Zu : K

/-- penalty of a lower and an upper slack -/
def penalty (s : Soft K) (sl su : K) : K := s.zl * sl + s.Zl / 2 * sl ^ 2 + (s.zu * su + s.Zu / 2 * su ^ 2)

/-- slacks with which the constraint holds -/
def Admissible (s : Soft K) (t : K × K) : Prop := 0 ≤ t.1 ∧ 0 ≤ t.2 ∧ s.lb - t.1 ≤ s.val ∧ s.val ≤ s.ub + t.2

/-- penalties of all choices of slacks -/
def Penalties (l : List (Soft K)) : Set K :=
  { c | ∃ ts : List (K × K), List.Forall₂ Admissible l ts ∧ c = (List.zipWith (fun s t => penalty s t.1 t.2) l ts).sum }

/-- penalty with the smallest slacks -/
def least (l : List (Soft K)) : K := (l.map fun s => penalty s (max (s.lb - s.val) 0) (max (s.val - s.ub) 0)).sum

end Acados.Evaluator
