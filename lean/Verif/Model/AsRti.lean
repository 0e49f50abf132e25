import Verif.Spec.AsRti
/-!
# QP updates of the advanced-step real-time iterations

`acados/ocp_nlp/ocp_nlp_common.c` lines 3106-3139, 3142-3190, 3194-3265, 3292-3351: `ocp_nlp_approximate_qp_vectors_sqp`,
`ocp_nlp_zero_order_qp_update`, `ocp_nlp_level_c_update`, `ocp_nlp_update_variables_sqp`;
`acados/ocp_nlp/ocp_nlp_sqp_rti.c` lines 396-453, 669-738, 742-795, 901-1040: residual computation, sanity checks, advancing the
problem, loops of levels B and C.

The QP solver is a function of the QP.  External functions are those of an `Nlp`.  Jacobians of constraints include bounds and slacks
(C05, C07, C08).  Regularisation, QP scaling and Anderson acceleration are off, algebraic variables are absent.
-/
namespace Acados.AsRti
open Finset
variable {K : Type} [Field K] [LinearOrder K]

/-- memory: QP data (`L` lower triangle of `RSQrq`, `Z`, `BAbt`, Jacobian of constraints, `rqz`, `b`, `d`), values in the NLP memory,
iterate, last QP solution `qp_out->ux` -/
structure Mem (K : Type) where
  L : Nat → Nat → Nat → K
  Z : Nat → Nat → K
  A : Nat → Nat → Nat → K
  G : Nat → Nat → Nat → K
  g : Nat → Nat → K
  b : Nat → Nat → K
  d : Nat → Nat → K
  costGrad : Nat → Nat → K
  dynFun : Nat → Nat → K
  ineqFun : Nat → Nat → K
  out : Point K
  step : Nat → Nat → K

/-- entry of the symmetric matrix of which the lower triangle is stored -/
def sym (L : Nat → Nat → K) (i j : Nat) : K := if j ≤ i then L i j else L j i

/-- Hessian of the QP of a stage: `RSQ` for controls and states, diagonal for slacks -/
def hess (d : Dims) (m : Mem K) (k i j : Nat) : K :=
  if i < d.nw k ∧ j < d.nw k then sym (m.L k) i j else if i = j then m.Z k (i - d.nw k) else 0

/-- the QP held in memory -/
def quad (d : Dims) (m : Mem K) : Quad K := ⟨hess d m, m.A, m.G, m.g, m.b, m.d⟩

/-- function of the dynamics, `fun = phi - x[next]`, ocp_nlp_dynamics_cont.c:988-990 and 1064-1066, ocp_nlp_dynamics_disc.c:923 -/
def dynFun (d : Dims) (p : Nlp K) (v : Nat → Nat → K) (k j : Nat) : K := p.phi k (v k) j - v (k + 1) (d.nu (k + 1) + j)

/-- first part of the adjoint, `- dphi pi`, ocp_nlp_dynamics_cont.c:1068-1071, ocp_nlp_dynamics_disc.c:928; the integrator's adjoint is
the product with the transposed Jacobian (C38, C65, C69) -/
def dynAdj (d : Dims) (p : Nlp K) (z : Point K) (k i : Nat) : K := -∑ j ∈ range (d.nx (k + 1)), p.dphi k (z.v k) i j * z.pi k j

/-- linearisation in the preparation phase, ocp_nlp_sqp_rti.c:1101-1107; `hs` and `zs` are the Hessian made of the contributions of all
modules (C73) -/
def linearize (d : Dims) (p : Nlp K) (hs : Nat → Nat → Nat → K) (zs : Nat → Nat → K) (m : Mem K) : Mem K :=
  { m with
    L := hs, Z := zs
    A := fun k => p.dphi k (m.out.v k)
    G := fun k => p.dh k (m.out.v k)
    costGrad := fun k => p.grad k (m.out.v k)
    dynFun := dynFun d p m.out.v }

/-- `ocp_nlp_approximate_qp_vectors_sqp`, ocp_nlp_common.c:3106-3139 -/
def vectors (p : Nlp K) (m : Mem K) : Mem K :=
  { m with
    g := m.costGrad
    b := m.dynFun
    ineqFun := fun k => p.h k (m.out.v k)
    d := fun k => p.h k (m.out.v k) }

/-- QP solution and update of the iterate with step length `a`, ocp_nlp_common.c:3292-3345 (multipliers are not damped if `full`),
ocp_nlp_globalization_fixed_step.c:172-199 -/
def solve (d : Dims) (sol : Quad K → Point K) (a : K) (full : Bool) (m : Mem K) : Mem K :=
  let w := sol (quad d m)
  { m with
    step := w.v
    out :=
      ⟨fun k i => m.out.v k i + a * w.v k i,
       fun k j => if full then w.pi k j else (1 - a) * m.out.pi k j + a * w.pi k j,
       fun k j => if full then w.lam k j else (1 - a) * m.out.lam k j + a * w.lam k j⟩ }

/-- `ocp_nlp_zero_order_qp_update`, ocp_nlp_common.c:3142-3190 -/
def zeroOrder (d : Dims) (p : Nlp K) (m : Mem K) : Mem K :=
  { m with
    d := fun k => p.h k (m.out.v k)
    ineqFun := fun k => p.h k (m.out.v k)
    b := dynFun d p m.out.v
    dynFun := dynFun d p m.out.v
    g := fun k i => if i < d.nw k then m.g k i + ∑ j ∈ range (d.nw k), sym (m.L k) i j * m.step k j else m.g k i }

/-- `ocp_nlp_level_c_update`, ocp_nlp_common.c:3194-3265 -/
def levelC (d : Dims) (p : Nlp K) (m : Mem K) : Mem K :=
  { m with
    d := fun k => p.h k (m.out.v k)
    ineqFun := fun k => p.h k (m.out.v k)
    costGrad := fun k => p.grad k (m.out.v k)
    b := dynFun d p m.out.v
    dynFun := dynFun d p m.out.v
    g := fun k i =>
      if k < d.N ∧ i < d.nw k then
        p.grad k (m.out.v k) i - dynAdj d p m.out k i - ∑ j ∈ range (d.nx (k + 1)), m.A k i j * m.out.pi k j
      else p.grad k (m.out.v k) i }

/-- writes of the residual computation to memory used later, ocp_nlp_sqp_rti.c:396-453 and 742-795: `update_qp_matrices` of the
constraints sets their Jacobian and adds their Hessian `hc`, if exact Hessians are used, to that of the QP
(ocp_nlp_constraints_bgh.c:1325, 1396-1404) -/
def logResiduals (p : Nlp K) (hc : Nat → (Nat → K) → (Nat → K) → Nat → Nat → K) (m : Mem K) : Mem K :=
  { m with
    G := fun k => p.dh k (m.out.v k)
    L := fun k i j => m.L k i j + hc k (m.out.v k) (m.out.lam k) i j
    costGrad := fun k => p.grad k (m.out.v k) }

/-- feedback phase, ocp_nlp_sqp_rti.c:523-661 -/
def feedback (d : Dims) (p : Nlp K) (sol : Quad K → Point K) (a : K) (full : Bool) (m : Mem K) : Mem K := solve d sol a full (vectors p m)

/-- `n` iterations with the QP update `upd`, ocp_nlp_sqp_rti.c:901-969 and 970-1040, while the QP solver succeeds -/
def iter (d : Dims) (sol : Quad K → Point K) (a : K) (full : Bool) (upd : Mem K → Mem K) : Nat → Mem K → Mem K
  | 0, m => m
  | n + 1, m => iter d sol a full upd n (solve d sol a full (upd m))

inductive Level | A | B | C | D
  deriving DecidableEq

/-- `as_rti_sanity_checks`, ocp_nlp_sqp_rti.c:669-709, `false` is `exit`; `nh` is the number of nonlinear constraints, the difference
of the numbers compared -/
def sane (d : Dims) (nh : Nat → Nat) (l : Level) : Bool :=
  d.nx 0 == d.nx 1
  && (l != .C || (List.range d.N).all fun k => nh k == 0)
  && (l != .B || (List.range (d.N + 1)).all fun k => d.ns k == 0)

inductive Advance | shift | simulate | none
  deriving DecidableEq

/-- `as_rti_advance_problem`, ocp_nlp_sqp_rti.c:711-738: values written to the bounds on states of stage 0, the `nbx` first entries;
`lb` are the bounds before -/
def advance (d : Dims) (p : Nlp K) (s : Advance) (m : Mem K) (nbx : Nat) (lb : Nat → K) (i : Nat) : K :=
  match s with
  | .shift => if i < nbx then m.out.v 1 (d.nu 1 + i) else lb i
  | .simulate => if i < nbx then dynFun d p m.out.v 0 i + m.out.v 1 (d.nu 1 + i) else lb i
  | .none => lb i

end Acados.AsRti
