import Verif.Spec.Irk
/-!
# Specification of cost propagation

The quadrature of a stage cost with the nodes and weights of the Runge-Kutta scheme, and its derivatives along
the linearised steps.
-/
namespace Acados.Irk
open Matrix
variable {K : Type*} [Field K] [LinearOrder K]

/-- `∑_steps ∑_i b_i φ(x_i, t_i)` with the stage values `x_i` of each step and the times `t_i = t + c_i h` -/
def quadrature {d : Dims} (o : Opts K) (h : K) (φ : (Fin d.nx → K) → K → K) : K → List (StepOut d K) → K
  | _, [] => 0
  | t, s :: l => ∑ i : Fin d.s, o.b_vec i.val * φ (stageOf o h s.x0 (kB d s.k) i) (t + o.c_vec i.val * h)
      + quadrature o h φ (t + h) l

/-- `∑_steps ∑_i b_i B(x_i, t_i, δx_i^p, δx_i^q)`, where `δx_i^p`, `δx_i^q` are the tangents of the stage
values when the steps are linearised in two directions: state tangents `δp`, `δq` at the beginning, control
tangents `δup`, `δuq` -/
inductive LinQuadrature {d : Dims} (o : Opts K) (h : K) (e : Ext d K) (u : Fin d.nu → K)
    (B : (Fin d.nx → K) → K → (Fin d.nx → K) → (Fin d.nx → K) → K) (δup δuq : Fin d.nu → K) :
    K → List (StepOut d K) → (Fin d.nx → K) → (Fin d.nx → K) → K → Prop where
  | nil (t δp δq) : LinQuadrature o h e u B δup δuq t [] δp δq 0
  | cons (t s l δp δq kp zp σp kq zq σq c) :
      LinStep o h e u (s.pt t) 0 δp δup kp zp σp → LinStep o h e u (s.pt t) 0 δq δuq kq zq σq →
      LinQuadrature o h e u B δup δuq (t + h) l σp σq c →
      LinQuadrature o h e u B δup δuq t (s :: l) δp δq
        (∑ i : Fin d.s, o.b_vec i.val * B (stageOf o h s.x0 (kB d s.k) i) (t + o.c_vec i.val * h)
          (stageOf o h δp kp i) (stageOf o h δq kq i) + c)

/-- a direction `(x, u)` in the order `(u, x)` of cost gradient and Hessian -/
def ux {d : Dims} (v : Fin (d.nx + d.nu) → K) : Fin (d.nu + d.nx) → K := Fin.append (sndP v) (fstP v)

/-- derivative of the inner function in direction `(δx, δu)`, from its transposed Jacobian with rows `(u, x)` -/
def inner {d : Dims} {ny : Nat} (Jt : Matrix (Fin (d.nu + d.nx)) (Fin ny) K) (δx : Fin d.nx → K)
    (δu : Fin d.nu → K) : Fin ny → K := Jtᵀ *ᵥ (Fin.append δu δx)

/-- the symmetric matrix with the given lower triangle -/
def symL {n : Nat} (H : Matrix (Fin n) (Fin n) K) : Matrix (Fin n) (Fin n) K := fun i j =>
  if j.val ≤ i.val then H i j else H j i

end Acados.Irk
