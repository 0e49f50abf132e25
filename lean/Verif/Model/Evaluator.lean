import Verif.Spec.Evaluator
/-!
# Cost and constraint evaluator, model with cost state

`interfaces/acados_template/acados_template/mpc_utils.py` lines 45-385 (`AcadosCostConstraintEvaluator`) and 388-456
(`create_model_with_cost_state`).

Simplifications: the problem has been made consistent (line 61), so lists of bounds and weights have their lengths; `z` and `phi` are
absent (refused in lines 73-75, 124-125); the global parameters are part of the functions; `step` is not negative.
-/
namespace Acados.Evaluator
variable {K X U : Type} [Field K] [LinearOrder K]

/-- a constraint: expression, lower and upper bound -/
structure Con (P K : Type) where
  fn : P → K
  lb : K
  ub : K

/-- constraints of one kind with the indices of the softened ones (`idxsbu`, `idxsbx`, `idxsg`, `idxsh`) -/
structure Group (P K : Type) where
  cons : List (Con P K)
  idxs : List Nat

/-- constraints of a stage type, in the order of lines 127-128, and weights of the slacks -/
structure Stage (P K : Type) where
  bu : Group P K
  bx : Group P K
  g : Group P K
  h : Group P K
  zl : List K
  Zl : List K
  zu : List K
  Zu : List K

variable {P : Type}

/-- `constraint_expr` with `lower_bound`, `upper_bound`, lines 127-145 -/
def Stage.all (s : Stage P K) : List (Con P K) := s.bu.cons ++ s.bx.cons ++ s.g.cons ++ s.h.cons

/-- `slack_indices`, lines 167-173 -/
def Stage.slackIdx (s : Stage P K) : List Nat :=
  s.bu.idxs ++ s.bx.idxs.map (· + s.bu.cons.length) ++ s.g.idxs.map (· + s.bu.cons.length + s.bx.cons.length)
    ++ s.h.idxs.map (· + s.bu.cons.length + s.bx.cons.length + s.g.cons.length)

/-- `lower_violation`, `upper_violation`, lines 161-162 -/
def lowerViol (c : Con P K) (p : P) : K := max (c.lb - c.fn p) 0
def upperViol (c : Con P K) (p : P) : K := max (c.fn p - c.ub) 0

/-- the selected violations, lines 192-193 (an index out of range is an error in CasADi; the problem is consistent) -/
def Stage.lowerSlack (s : Stage P K) (p : P) : List K := s.slackIdx.map fun i => (s.all.map fun c => lowerViol c p).getD i 0
def Stage.upperSlack (s : Stage P K) (p : P) : List K := s.slackIdx.map fun i => (s.all.map fun c => upperViol c p).getD i 0

/-- `nonslacked_indices`, lines 182-185 -/
def Stage.hardIdx (s : Stage P K) : List Nat := (List.range s.all.length).filter fun i => i ∉ s.slackIdx

/-- `violation_hard_constraints`, lines 297-298 -/
def Stage.hardViol (s : Stage P K) (p : P) : List K :=
  s.hardIdx.map (fun i => (s.all.map fun c => lowerViol c p).getD i 0) ++ s.hardIdx.map (fun i => (s.all.map fun c => upperViol c p).getD i 0)

/-- `0.5 * Z @ (s * s) + z @ s`, lines 303-311; an empty vector of weights is skipped -/
def slackCost (Z z s : List K) : K :=
  (if Z = [] then 0 else 1 / 2 * (List.zipWith (fun a b => a * (b * b)) Z s).sum) + (if z = [] then 0 else (List.zipWith (fun a b => a * b) z s).sum)

/-- the evaluator: `np` parameters, `N` stages; columns of the array of parameter values (line 77) -/
structure Ev (np : Nat) (X U K : Type) where
  N : Nat
  cols : Nat → (Fin np → K)
  cost : X × U × (Fin np → K) → K
  costE : X × (Fin np → K) → K
  stage : Stage (X × U × (Fin np → K)) K
  stageE : Stage (X × (Fin np → K)) K
  /-- `cost_scaling`, `N + 1` entries -/
  scal : Nat → K

/-- line 77: `np.tile(parameter_values, (np, N))` of a vector of length `np` has `np` rows and `np * N` columns, and column `j` has in all
its rows the entry `j % np` -/
def tile {np : Nat} (pv : Fin np → K) : Nat → (Fin np → K) := fun j i => pv ⟨j % np, Nat.mod_lt _ (lt_of_le_of_lt (Nat.zero_le _) i.isLt)⟩

/-- `update_all`, lines 225-241: columns `0 .. N-1` become the parameters of these stages in the solver -/
def Ev.updateAll {np : Nat} (e : Ev np X U K) (sol : Nat → (Fin np → K)) : Ev np X U K :=
  { e with cols := fun j => if j < e.N then sol j else e.cols j }

/-- result of `evaluate` -/
structure Out (K : Type) where
  cost : K
  costNoSlacks : K
  costSlacks : K
  soft : List K
  hard : List K

/-- `evaluate`, lines 264-331; `given` are the columns of the argument `p`, which must have the shape of the stored array.  `none` is the
error of an index out of range -/
def Ev.evaluate {np : Nat} (e : Ev np X U K) (x : X) (u : U) (step : Nat) (given : Option (Nat → (Fin np → K))) : Option (Out K) :=
  if (0 < np ∧ np * e.N ≤ step) ∨ e.N < step then none
  else
    let p := (given.getD e.cols) step
    let a := (x, u, p)
    let c := e.cost a * e.scal step
    let sl := e.stage.lowerSlack a
    let su := e.stage.upperSlack a
    let sc := (slackCost e.stage.Zl e.stage.zl sl + slackCost e.stage.Zu e.stage.zu su) * e.scal step
    some ⟨c + sc, c, sc, sl ++ su, e.stage.hardViol a⟩

/-- `0.5 * s' @ Z @ s + z @ s` of lines 369-380, `Z` being a vector: for two or more slacks the shapes do not fit -/
def slackCostE (Z z s : List K) : Option K :=
  if Z ≠ [] ∧ s.length ≠ 1 then none else some (slackCost Z z s)

/-- stages `1 .. N-1` of `evaluate_ocp_cost`, lines 350-353 -/
def Ev.pathCost {np : Nat} (e : Ev np X U K) : Nat → List (X × U) → Option K
  | _, [] => some 0
  | k, (x, u) :: l =>
    match e.evaluate x u k none with
    | none => none
    | some o => (e.pathCost (k + 1) l).map (o.cost + ·)

/-- `evaluate_ocp_cost`, lines 333-385: states of `N + 1` stages and controls of `N`; the parameters given are used for the terminal stage
only; the terminal stage uses the last column -/
def Ev.ocpCost {np : Nat} (e : Ev np X U K) (xs : List X) (us : List U) (given : Option (Nat → (Fin np → K))) : Option K :=
  match xs, us with
  | x0 :: xs', u0 :: us' =>
    match e.evaluate x0 u0 0 none, e.pathCost 1 (xs'.zip us'), (x0 :: xs').getLast? with
    | some o, some c, some xN =>
      let a := (xN, (given.getD e.cols) (np * e.N - 1))
      match slackCostE e.stageE.Zl e.stageE.zl (e.stageE.lowerSlack a), slackCostE e.stageE.Zu e.stageE.zu (e.stageE.upperSlack a) with
      | some l, some u => some (o.costNoSlacks + c + e.costE a + (l + u))
      | _, _ => none
    | _, _, _ => none
  | _, _ => none

/-- the terms `create_model_with_cost_state` adds for the softened constraints of a list, lines 407-451: `z * v + Z * v ** 2` for both
sides, the counter `i_slack` running over the kinds of constraints in the order `bu`, `bx`, `g`, `h` -/
def costDotAux (s : Stage P K) (p : P) (grp : Group P K) (i0 : Nat) : K :=
  ((List.range grp.idxs.length).map fun j =>
    match grp.cons[grp.idxs.getD j 0]? with
    | none => 0
    | some c =>
      (s.zl.getD (i0 + j) 0 * lowerViol c p + s.Zl.getD (i0 + j) 0 * lowerViol c p ^ 2)
        + (s.zu.getD (i0 + j) 0 * upperViol c p + s.Zu.getD (i0 + j) 0 * upperViol c p ^ 2)).sum

/-- right-hand side of the cost state, lines 403-455 -/
def costDot (cost : P → K) (s : Stage P K) (p : P) : K :=
  cost p + costDotAux s p s.bu 0 + costDotAux s p s.bx s.bu.idxs.length + costDotAux s p s.g (s.bu.idxs.length + s.bx.idxs.length)
    + costDotAux s p s.h (s.bu.idxs.length + s.bx.idxs.length + s.g.idxs.length)

end Acados.Evaluator
