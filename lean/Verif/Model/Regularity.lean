import Verif.Spec.Regularity
import Mathlib.LinearAlgebra.Matrix.Rank

/-!
Model of the checks of a solution in
`interfaces/acados_template/acados_template/acados_casadi_ocp_solver.py`: lists of equalities and
active inequalities by stage, strict complementarity, LICQ.

Simplifications: `double` is an ordered field with infinite bounds as `none`, there is no NaN.
Arrays are functions of the index: that the index maps stay within them is part of C97.  The
numerical rank is the rank, the derivative computed by CasADi is given.  Exceptions are `none`.
Only multiple shooting, after a call of `solve`.
-/

namespace Acados.Regularity

/-- What the checks read: bounds, solution and multipliers of variables and constraints
(acados_casadi_ocp_solver.py:80, 135), derivatives of the constraints, index maps, dimensions and
`solver_options.nlp_solver_tol_ineq`. -/
structure Nlp (K : Type*) where
  N : ℕ
  lbw : ℕ → Option K
  ubw : ℕ → Option K
  w : ℕ → K
  lamW : ℕ → K
  lbg : ℕ → Option K
  ubg : ℕ → Option K
  g : ℕ → K
  lamG : ℕ → K
  jac : ℕ → ℕ → K
  xInW : ℕ → List ℕ
  uInW : ℕ → List ℕ
  lamBx : ℕ → List ℕ
  lamBu : ℕ → List ℕ
  pi : ℕ → List ℕ
  lamGnl : ℕ → List ℕ
  lamGnlSl : ℕ → List ℕ
  lamGnlSu : ℕ → List ℕ
  lamSl : ℕ → List ℕ
  lamSu : ℕ → List ℕ
  nbx0 : ℕ
  nbx : ℕ
  nbxe : ℕ
  nbu : ℕ
  tol : K

section
variable {K : Type*} [Field K] [LinearOrder K]

omit [LinearOrder K] in
/-- Entry `p` of the decision variables as a constraint: `bounds['lbx'][p]`, `bounds['ubx'][p]`,
`nlp_sol_w[p]`, `nlp_sol_lam_w[p]`, `casadi_nlp['x'][p]`. -/
def Nlp.conW (n : Nlp K) (p : ℕ) : Con K :=
  ⟨n.lbw p, n.ubw p, n.w p, n.lamW p, fun q => if q = p then 1 else 0⟩

omit [Field K] [LinearOrder K] in
/-- Entry `p` of the constraints: `bounds['lbg'][p]`, `bounds['ubg'][p]`, `nlp_sol_g[p]`,
`nlp_sol_lam_g[p]`, `casadi_nlp['g'][p]`. -/
def Nlp.conG (n : Nlp K) (p : ℕ) : Con K :=
  ⟨n.lbg p, n.ubg p, n.g p, n.lamG p, n.jac p⟩

omit [LinearOrder K] in
/-- The constraints of a stage in the order of `constraints_value_get`,
acados_casadi_ocp_solver.py:539-552, of the bounds 562-575 and of the expressions 711-730. -/
def Nlp.cons (n : Nlp K) (k : ℕ) : List (Con K) :=
  if k < n.N then
    (n.lamBx k).map n.conW ++ (n.lamBu k).map n.conW ++ (n.pi k).map n.conG ++
      (n.lamGnl k).map n.conG
  else (n.lamBx k).map n.conW ++ (n.lamGnl k).map n.conG

omit [LinearOrder K] in
/-- The constraints of a stage none of these functions reads: the two parts of soft nonlinear
constraints (acados_casadi_ocp.py:552-557) and the bounds on slacks (523-532). -/
def Nlp.soft (n : Nlp K) (k : ℕ) : List (Con K) :=
  (n.lamGnlSl k).map n.conG ++ (n.lamGnlSu k).map n.conG ++ (n.lamSl k).map n.conW ++
    (n.lamSu k).map n.conW

omit [LinearOrder K] in
/-- All constraints of a stage. -/
def Nlp.allCons (n : Nlp K) (k : ℕ) : List (Con K) := n.cons k ++ n.soft k

omit [Field K] in
/-- `lb[i] != ub[i]`, negated, acados_casadi_ocp_solver.py:595: bounds at minus and plus infinity
differ. -/
def Con.eqB (c : Con K) : Bool :=
  match c.lb, c.ub with
  | some a, some b => decide (a = b)
  | _, _ => false

/-- `constraints_value[i] - lb[i] < t`, acados_casadi_ocp_solver.py:604, 607, 610. -/
def Con.below (t : K) (c : Con K) : Bool :=
  match c.lb with
  | some a => decide (c.val - a < t)
  | none => false

/-- `ub[i] - constraints_value[i] < t`, acados_casadi_ocp_solver.py:605, 607, 611. -/
def Con.above (t : K) (c : Con K) : Bool :=
  match c.ub with
  | some b => decide (b - c.val < t)
  | none => false

omit [Field K] [LinearOrder K] in
/-- A test of entry `i`. -/
def at' (l : List (Con K)) (f : Con K → Bool) (i : ℕ) : Bool := (l[i]?).any f

/-- `nbx + nbu`, acados_casadi_ocp_solver.py:580-588. -/
def Nlp.nb (n : Nlp K) (k : ℕ) : ℕ :=
  if k = 0 then n.nbx0 + n.nbu else if k < n.N then n.nbx + n.nbu else n.nbxe + 0

/-- The result of `get_constraints_indices`, acados_casadi_ocp_solver.py:612. -/
structure Idx where
  ineq : List ℕ
  eqBounds : List ℕ
  eqG : List ℕ
  lo : List ℕ
  up : List ℕ
  deriving DecidableEq

/-- `get_constraints_indices`, acados_casadi_ocp_solver.py:555-612; `none` is the exception at
line 608. -/
def Nlp.indices (n : Nlp K) (k : ℕ) : Option Idx :=
  let l := n.cons k
  let ineq := (List.range l.length).filter (fun i => !at' l Con.eqB i)
  let eq := (List.range l.length).filter (at' l Con.eqB)
  if ineq.any (at' l (Con.below (-n.tol))) || ineq.any (at' l (Con.above (-n.tol))) then none
  else some
    { ineq := ineq
      eqBounds := eq.filter (fun i => decide (i < n.nb k))
      eqG := eq.filter (fun i => !decide (i < n.nb k))
      lo := ineq.filter (at' l (Con.below n.tol))
      up := ineq.filter (at' l (Con.above n.tol)) }

/-- `satisfies_strict_complementarity_stage_wise(stage, tol)`,
acados_casadi_ocp_solver.py:614-635: the argument `tol` is overwritten at line 620. -/
def Nlp.strictStage (n : Nlp K) (k : ℕ) (_tol : K) : Option Bool :=
  (n.indices k).map fun ix =>
    ix.lo.all (at' (n.cons k) (fun c => !decide (max 0 (-c.lam) < n.tol))) &&
      ix.up.all (at' (n.cons k) (fun c => !decide (max 0 c.lam < n.tol)))

/-- `satisfies_strict_complementarity_stages(tol)`, acados_casadi_ocp_solver.py:637-647. -/
def Nlp.strictStages (n : Nlp K) (_tol : K) : Option (List Bool) :=
  (List.range (n.N + 1)).mapM (fun k => n.strictStage k n.tol)

/-- The loops acados_casadi_ocp_solver.py:656-660, 695-699: the first stage that fails ends it. -/
def loop (f : ℕ → Option Bool) : List ℕ → Option Bool
  | [] => some true
  | k :: ks => (f k).bind fun b => if b then loop f ks else some false

/-- `satisfies_strict_complementarity()`, acados_casadi_ocp_solver.py:649-660. -/
def Nlp.strict (n : Nlp K) : Option Bool :=
  loop (fun k => n.strictStage k n.tol) (List.range (n.N + 1))

/-- Rows of `constraint_matrix`, acados_casadi_ocp_solver.py:673-678, as sign and index;
`eq_indices` from lines 715, 725, 731: those on the variables of the initial stage are left out. -/
def Idx.rows (ix : Idx) (k : ℕ) : List (Bool × ℕ) :=
  (if k = 0 then ix.eqG else ix.eqBounds ++ ix.eqG).map (fun i => (false, i)) ++
    ix.lo.map (fun i => (true, i)) ++ ix.up.map (fun i => (false, i))

/-- The variables `w`, acados_casadi_ocp_solver.py:707-708, 717-718, 727: states and controls of
the stage. -/
def Nlp.cols (n : Nlp K) (k : ℕ) : List ℕ := if k < n.N then n.xInW k ++ n.uInW k else n.xInW k

omit [LinearOrder K] in
/-- An entry of the derivative of `constraint_matrix`, acados_casadi_ocp_solver.py:676-680. -/
def entry (l : List (Con K)) (r : Bool × ℕ) (q : ℕ) : K :=
  if r.1 then -gradAt l r.2 q else gradAt l r.2 q

omit [LinearOrder K] in
/-- `constraint_jac_value`, acados_casadi_ocp_solver.py:679-680. -/
def jacMat (l : List (Con K)) (rows : List (Bool × ℕ)) (cols : List ℕ) :
    Matrix (Fin rows.length) (Fin cols.length) K :=
  Matrix.of fun a b => entry l rows[a] cols[b]

open Classical in
/-- `satisfies_LICQ_stage_wise(stage)`, acados_casadi_ocp_solver.py:662-687.  The rank of a matrix
without nonzero entries is zero, line 683. -/
noncomputable def Nlp.licqStage (n : Nlp K) (k : ℕ) : Option Bool :=
  (n.indices k).map fun ix =>
    decide ((jacMat (n.cons k) (ix.rows k) (n.cols k)).rank = (ix.rows k).length)

/-- `satisfies_LICQ()`, acados_casadi_ocp_solver.py:689-699. -/
noncomputable def Nlp.licq (n : Nlp K) : Option Bool :=
  loop n.licqStage (List.range (n.N + 1))

end

end Acados.Regularity
