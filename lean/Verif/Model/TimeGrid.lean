import Mathlib.Algebra.Order.Field.Basic
import Mathlib.Data.Rat.Defs

/-!
# The time grid of a problem description

`interfaces/acados_template/acados_template/acados_ocp.py`: `_make_consistent_discretization`
(lines 987-1024), the default of `cost_scaling` (lines 1232-1236), `_make_consistent_simulation`
(lines 1027-1069, the expansion of the three integrator settings) and the condensing options
(lines 1251-1261) of `AcadosOcp.make_consistent`.

A numpy vector is a list, an option that is `None` or an empty array is the empty list, an exception is
`none`.  Numbers are those of an ordered field `K`: rounding is not modelled, a division by zero is, by
the comparisons `divLt` and `divGt` (infinities and NaN of IEEE arithmetic, zero taken unsigned).  `tf` is a
number (the type check of line 994 is not modelled).  The integrator settings are rational numbers.
-/

namespace Acados.TimeGrid

/-- the options that are read: `N_horizon`, `tf`, `time_steps`, `shooting_nodes`, `cost_scaling`;
acados_ocp_options.py:2061-2132 -/
structure Opts (K : Type) where
  N : Nat
  tf : K
  steps : List K
  nodes : List K
  scaling : Option (List K)
  deriving DecidableEq

section
variable {K : Type} [Field K] [LinearOrder K]

/-- `np.cumsum`, as used in acados_ocp.py:1000 and 1004, `a` the sum so far -/
def cumsum : K → List K → List K
  | _, [] => []
  | a, x :: l => (a + x) :: cumsum (a + x) l

/-- `shooting_nodes[1:] - shooting_nodes[0:-1]`, acados_ocp.py:1010 -/
def diffs : List K → List K
  | x :: y :: l => (y - x) :: diffs (y :: l)
  | _ => []

/-- `np.max` and `np.min` of a nonempty vector, acados_ocp.py:1014 -/
def maxL : K → List K → K
  | a, [] => a
  | a, x :: l => maxL (max a x) l
@[inherit_doc maxL] def minL : K → List K → K
  | a, [] => a
  | a, x :: l => minL (min a x) l

/-- the comparison `a / b < c`, `c > 0`, of acados_ocp.py:1014-1016: for `b = 0` the quotient is `-inf`, NaN or
`inf` -/
def divLt (a b c : K) : Bool := if b = 0 then decide (a < 0) else decide (a / b < c)

/-- the comparison `a / b > c`, `c > 0`, of acados_ocp.py:1022: for `b = 0` the quotient is `-inf`, NaN or
`inf` -/
def divGt (a b c : K) : Bool := if b = 0 then decide (0 < a) else decide (c < a / b)

/-- lines 1010-1019: constant steps are replaced by their average -/
def stepsOfNodes (nodes : List K) : List K :=
  match diffs nodes with
  | [] => []
  | x :: t =>
      let ts := x :: t
      let avg := ts.sum / (ts.length : K)
      if divLt (maxL x t - minL x t) avg (1 / 10 ^ 9) then ts.map (fun _ => avg) else ts

/-- acados_ocp.py:1021-1024: does the check of `tf` pass? -/
def tfOk (tf : K) (steps : List K) : Bool := !divGt (steps.sum - tf) steps.sum (1 / 10 ^ 13)

/-- `_make_consistent_discretization`, acados_ocp.py:987-1024: the values of `time_steps` and `shooting_nodes` it
leaves -/
def discretize (o : Opts K) : Option (List K × List K) :=
  if o.N = 0 then some ([], [0])
  else if o.steps = [] ∧ o.nodes = [] then
    let ts := List.replicate o.N (o.tf / (o.N : K))
    if tfOk o.tf ts then some (ts, 0 :: cumsum 0 ts) else none
  else if o.steps ≠ [] then
    if tfOk o.tf o.steps then some (o.steps, 0 :: cumsum 0 o.steps) else none
  else if o.nodes.length ≠ o.N + 1 then none
  else
    let ts := stepsOfNodes o.nodes
    if tfOk o.tf ts then some (ts, o.nodes) else none

/-- `_make_consistent_discretization` followed by the treatment of `cost_scaling`, acados_ocp.py:1230-1236: the
description that is left -/
def consistent (o : Opts K) : Option (Opts K) :=
  (discretize o).bind fun r =>
    let sc := o.scaling.getD (r.1 ++ [1])
    if sc.length ≠ o.N + 1 then none
    else some { o with steps := r.1, nodes := r.2, scaling := some sc }

end

/-- a setting of the integrator: a number or a vector -/
inductive SimOpt where
  | scalar (v : ℚ)
  | array (l : List ℚ)
  deriving DecidableEq

/-- lines 1038-1046, 1049-1057 and 1060-1068 of `_make_consistent_simulation` for one of the settings: first a
vector of one entry becomes a number, then a number is repeated and a vector is checked.  Simplified: an integral
float that is repeated gives a vector of floats, here integers. -/
def expand (N : Nat) (s : SimOpt) : Option (List ℤ) :=
  let s := match s with
    | .array [v] => SimOpt.scalar v
    | s => s
  match s with
  | .scalar v => if v.den = 1 then some (List.replicate N v.num) else none
  | .array l => if l.length = N ∧ ∀ v ∈ l, v.den = 1 then some (l.map (·.num)) else none

/-- condensing options, acados_ocp.py:1251-1261: the `qp_solver_cond_N` that is left; the entries of
`qp_solver_cond_block_size` are natural numbers by its setter, acados_ocp_options.py:1008-1014 -/
def condN (N : Nat) (cN : Option Nat) (blocks : Option (List Nat)) : Option Nat :=
  let c := cN.getD N
  if c > N then none
  else match blocks with
    | none => some c
    | some b => if b.sum ≠ N then none else if b.length ≠ c + 1 then none else some c

end Acados.TimeGrid
