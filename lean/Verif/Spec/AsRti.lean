import Mathlib.Algebra.BigOperators.Group.Finset.Basic
import Mathlib.Algebra.BigOperators.Ring.Finset
import Mathlib.Algebra.Field.Defs
import Mathlib.Algebra.Order.Ring.Defs
/-!
# Vocabulary for the advanced-step real-time iterations

The nonlinear problem, its optimality conditions, and those of a QP with stage-wise structure.
-/
namespace Acados.AsRti
open Finset

/-- horizon and dimensions of the stages: states, controls, slacks on each side, two-sided constraints (counting slack bounds) -/
structure Dims where
  N : Nat
  nx : Nat → Nat
  nu : Nat → Nat
  ns : Nat → Nat
  ni : Nat → Nat

/-- number of controls and states of a stage -/
def Dims.nw (d : Dims) (k : Nat) : Nat := d.nu k + d.nx k

/-- number of variables of a stage: controls, states, slacks -/
def Dims.nv (d : Dims) (k : Nat) : Nat := d.nu k + d.nx k + 2 * d.ns k

/-- the nonlinear problem; every function takes the stage and its variables.  Next state `phi` with transposed Jacobian `dphi`,
constraints `h ≤ 0` (two for each two-sided one) with transposed Jacobian `dh`. -/
structure Nlp (K : Type) where
  grad : Nat → (Nat → K) → Nat → K
  phi : Nat → (Nat → K) → Nat → K
  dphi : Nat → (Nat → K) → Nat → Nat → K
  h : Nat → (Nat → K) → Nat → K
  dh : Nat → (Nat → K) → Nat → Nat → K

/-- variables of the stages, multipliers of the dynamics and of the constraints -/
structure Point (K : Type) where
  v : Nat → Nat → K
  pi : Nat → Nat → K
  lam : Nat → Nat → K

variable {K : Type} [Field K] [LinearOrder K]

/-- contribution of the dynamics to the gradient of the Lagrangian: `A pi_k - pi_{k-1}` with transposed Jacobians `A` -/
def dynTerm (d : Dims) (A : Nat → Nat → Nat → K) (pi : Nat → Nat → K) (k i : Nat) : K :=
  (if k < d.N ∧ i < d.nw k then ∑ j ∈ range (d.nx (k + 1)), A k i j * pi k j else 0)
    - if 0 < k ∧ d.nu k ≤ i ∧ i < d.nw k then pi (k - 1) (i - d.nu k) else 0

/-- the dynamics and the constraints hold -/
def Nlp.Feasible (d : Dims) (p : Nlp K) (v : Nat → Nat → K) : Prop :=
  (∀ k < d.N, ∀ j < d.nx (k + 1), p.phi k (v k) j = v (k + 1) (d.nu (k + 1) + j)) ∧ ∀ k ≤ d.N, ∀ j < 2 * d.ni k, p.h k (v k) j ≤ 0

/-- multipliers are nonnegative and vanish for inactive constraints -/
def Compl (d : Dims) (c : Nat → Nat → K) (lam : Nat → Nat → K) : Prop := ∀ k ≤ d.N, ∀ j < 2 * d.ni k, 0 ≤ lam k j ∧ lam k j * c k j = 0

/-- optimality conditions of the nonlinear problem -/
def Nlp.Kkt (d : Dims) (p : Nlp K) (z : Point K) : Prop :=
  (∀ k ≤ d.N, ∀ i < d.nv k, p.grad k (z.v k) i + dynTerm d (fun k => p.dphi k (z.v k)) z.pi k i
      + ∑ j ∈ range (2 * d.ni k), p.dh k (z.v k) i j * z.lam k j = 0)
  ∧ p.Feasible d z.v ∧ Compl d (fun k => p.h k (z.v k)) z.lam

/-- a QP: Hessian, transposed Jacobians of dynamics and constraints, gradient, right-hand sides -/
structure Quad (K : Type) where
  H : Nat → Nat → Nat → K
  A : Nat → Nat → Nat → K
  G : Nat → Nat → Nat → K
  g : Nat → Nat → K
  b : Nat → Nat → K
  d : Nat → Nat → K

/-- optimality conditions of a QP -/
def Quad.Kkt (d : Dims) (q : Quad K) (w : Point K) : Prop :=
  (∀ k ≤ d.N, ∀ i < d.nv k, q.g k i + ∑ j ∈ range (d.nv k), q.H k i j * w.v k j + dynTerm d q.A w.pi k i
      + ∑ j ∈ range (2 * d.ni k), q.G k i j * w.lam k j = 0)
  ∧ (∀ k < d.N, ∀ j < d.nx (k + 1), ∑ i ∈ range (d.nw k), q.A k i j * w.v k i + q.b k j = w.v (k + 1) (d.nu (k + 1) + j))
  ∧ (∀ k ≤ d.N, ∀ j < 2 * d.ni k, q.d k j + ∑ i ∈ range (d.nv k), q.G k i j * w.v k i ≤ 0)
  ∧ Compl d (fun k j => q.d k j + ∑ i ∈ range (d.nv k), q.G k i j * w.v k i) w.lam

/-- no step, with given multipliers -/
def noStep (pi lam : Nat → Nat → K) : Point K := ⟨fun _ _ => 0, pi, lam⟩

/-- conditions a fixed point of the zero-order iterations is meant to satisfy: constraints of the problem `p`, and stationarity of the
quadratic model made at `vb` with the problem `pb` and the Hessian `H` -/
def ZeroOrderKkt (d : Dims) (pb p : Nlp K) (H : Nat → Nat → Nat → K) (vb : Nat → Nat → K) (z : Point K) : Prop :=
  (∀ k ≤ d.N, ∀ i < d.nv k, pb.grad k (vb k) i + ∑ j ∈ range (d.nv k), H k i j * (z.v k j - vb k j)
      + dynTerm d (fun k => pb.dphi k (vb k)) z.pi k i + ∑ j ∈ range (2 * d.ni k), pb.dh k (vb k) i j * z.lam k j = 0)
  ∧ p.Feasible d z.v ∧ Compl d (fun k => p.h k (z.v k)) z.lam

/-- `L` holds the lower triangle of the symmetric matrices `H` -/
def LowerOf (d : Dims) (L H : Nat → Nat → Nat → K) : Prop := ∀ k i j, i < d.nw k → j < d.nw k → H k i j = H k j i ∧ (j ≤ i → L k i j = H k i j)

/-- product of the Hessian of a stage, `H` for controls and states and diagonal `Z` for slacks, with a step -/
def hessTimes (d : Dims) (H : Nat → Nat → Nat → K) (Z : Nat → Nat → K) (w : Nat → Nat → K) (k i : Nat) : K :=
  if i < d.nw k then ∑ j ∈ range (d.nw k), H k i j * w k j else Z k (i - d.nw k) * w k i

end Acados.AsRti
