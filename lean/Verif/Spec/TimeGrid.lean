import Mathlib.Algebra.Order.Field.Basic

/-!
# Specification of a time grid

A grid has `N` intervals of lengths `steps` between `N + 1` shooting nodes.
-/

namespace Acados.TimeGrid

variable {K : Type} [Field K] [LinearOrder K]

/-- consecutive nodes are one time step apart -/
def NodesMatch (steps nodes : List K) : Prop :=
  nodes.length = steps.length + 1 ∧
    ∀ (k : Nat) (a b h : K), nodes[k]? = some a → nodes[k + 1]? = some b → steps[k]? = some h → b - a = h

/-- the grid a user expects: `N` intervals from 0 to the horizon `tf` -/
def IsGrid (N : Nat) (tf : K) (steps nodes : List K) : Prop :=
  steps.length = N ∧ NodesMatch steps nodes ∧ nodes[0]? = some 0 ∧ nodes[N]? = some tf

/-- the nodes are in increasing order -/
def Increasing (nodes : List K) : Prop :=
  ∀ (k : Nat) (a b : K), nodes[k]? = some a → nodes[k + 1]? = some b → a < b

end Acados.TimeGrid
