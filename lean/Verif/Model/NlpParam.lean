import Verif.Model.Num
/-!
# Adaptive parameters of the NLP solvers

* the adaptive Levenberg-Marquardt parameter (`ocp_nlp_common.c:2948-2996`)
* the adaptive QP solver tolerances (`ocp_nlp_common.c:4460-4511`)
-/
namespace Acados.Param

/-- the literal `n/d` -/
def lit {D : Type*} [NatCast D] [Div D] (n d : Nat) : D := (n : D) / (d : D)

/-! ## Levenberg-Marquardt -/

/-- options, `ocp_nlp_common.h` (fields `adaptive_levenberg_marquardt_*`); set in
`ocp_nlp_common.c:1338-1686` -/
structure LmOpts (K : Type*) where
  lam : K
  muMin : K
  mu0 : K
  objScalar : K

/-- the two parameters kept in the solver memory -/
structure LmMem (K : Type*) where
  mu : K
  muBar : K

section
variable {K : Type*} [NatCast K] [Div K] [Mul K] [LT K] [DecidableLT K] [DecidableEq K]

/-- `adaptive_levenberg_marquardt_update_mu`, ocp_nlp_common.c:2948-2969.  (`iter` is passed as a
`double`; only its comparison with 0 matters.) -/
def updateMu (o : LmOpts K) (m : LmMem K) (iter : Nat) (step : K) : LmMem K :=
  if iter = 0 then { mu := o.mu0, muBar := o.mu0 }
  else if step = lit 1 1 then
    { mu := cmax o.muMin (m.muBar / o.lam), muBar := m.mu }
  else { m with mu := cmin (o.lam * m.mu) (lit 1 1) }

/-- the calls of one solve: iteration 0, then one call per further iteration with the step size of
the previous iteration (`ocp_nlp_sqp.c`, `ocp_nlp_ddp.c`: `ocp_nlp_add_levenberg_marquardt_term(…,
alpha, iter, …)`) -/
def runMu (o : LmOpts K) (m : LmMem K) (steps : List K) : LmMem K :=
  (steps.foldl (fun (s : Nat × LmMem K) a => (s.1 + 1, updateMu o s.2 s.1 a))
    (1, updateMu o m 0 (lit 0 1))).2

end

section
variable {K : Type*} [NatCast K] [Div K] [Mul K] [Add K] [LT K] [DecidableLT K] [DecidableEq K]

/-- state touched by `ocp_nlp_add_levenberg_marquardt_term`: the option value
`levenberg_marquardt` (which is overwritten), the memory, and the stage Hessians of `mem->qp_in` -/
structure LmState (K : Type*) where
  lm : K
  mem : LmMem K
  hess : Nat → Nat → Nat → K

/-- `ocp_nlp_add_levenberg_marquardt_term`, ocp_nlp_common.c:2971-2996.
The argument `qp_in` of the C function is not used: the Hessian of `mem->qp_in` is modified. -/
def addLm (N : Nat) (nxu : Nat → Nat) (scaling : Nat → K) (adaptive computeHess : Bool)
    (o : LmOpts K) (cost alpha : K) (iter : Nat) (s : LmState K) : LmState K :=
  let s1 : LmState K :=
    if adaptive then
      let m := updateMu o s.mem iter alpha
      { s with mem := m, lm := o.objScalar * cost * m.mu }
    else s
  if computeHess ∧ lit 0 1 < s1.lm then
    { s1 with hess := fun i r c =>
        if i ≤ N ∧ r < nxu i ∧ r = c then s1.hess i r c + scaling i * s1.lm else s1.hess i r c }
  else s1

end

/-! ## QP tolerances -/

/-- the four tolerances / residual norms -/
structure Four (D : Type*) where
  stat : D
  eq : D
  ineq : D
  comp : D

/-- options `nlp_qp_tol_*`, ocp_nlp_common.c:1216-1222 -/
structure TolOpts (D : Type*) where
  reduction : D
  safety : D
  tol : Four D
  min : Four D

section
variable {D : Type*} [NatCast D] [Div D] [Mul D] [LT D] [DecidableLT D]

/-- the common tolerance, ocp_nlp_common.c:4463-4472 -/
def jointTol (o : TolOpts D) (res : Four D) : D :=
  let s := cmin (o.reduction * res.stat) (lit 1 100)
  let e := cmin (o.reduction * res.eq) (lit 1 100)
  let i := cmin (o.reduction * res.ineq) (lit 1 100)
  let c := cmin (o.reduction * res.comp) (lit 1 100)
  cmax s (cmax e (cmax i c))

/-- `ADAPTIVE_CURRENT_RES_JOINT`, ocp_nlp_common.c:4460-4486 -/
def tolJoint (o : TolOpts D) (res : Four D) : Four D :=
  let j := jointTol o res
  { stat := cmax (o.safety * o.tol.stat) j
    eq := cmax (o.safety * o.tol.eq) j
    ineq := cmax (o.safety * o.tol.ineq) j
    comp := cmax (o.safety * o.tol.comp) j }

/-- `ADAPTIVE_QPSCALING`, ocp_nlp_common.c:4487-4511; `minScal`, `objFac` are what
`ocp_nlp_qpscaling_memory_get` returns -/
def tolScaling (o : TolOpts D) (objFac minScal : D) : Four D :=
  let f := cmin objFac minScal
  { stat := cmax (o.safety * o.tol.stat * f) o.min.stat
    eq := cmax (o.safety * o.tol.eq * lit 1 1) o.min.eq
    ineq := cmax (o.safety * o.tol.ineq * minScal) o.min.ineq
    comp := cmax (o.safety * o.tol.comp * minScal) o.min.comp }

end

end Acados.Param
