import Mathlib.Algebra.BigOperators.Group.Finset.Basic
import Mathlib.Algebra.Field.Basic
import Mathlib.Algebra.Module.Prod
/-!
# Optimal control problems with a control horizon: what they mean
-/
namespace Acados.ControlHorizon
open Finset

/-- an optimal control problem: one step of the dynamics for a time step, conditions on the initial state, bounds on controls, other
constraints of the initial and path stages, terminal constraints, costs -/
structure Prob (X U K : Type) where
  step : K → X → U → X
  start : X → Prop
  B : U → Prop
  C0 : X → U → Prop
  C : X → U → Prop
  CT : X → Prop
  l0 : X → U → K
  l : X → U → K
  lT : X → K

variable {X U K : Type} [Field K]

/-- a trajectory that satisfies dynamics and constraints on the grid `dt` -/
def Feasible (p : Prob X U K) (N : Nat) (dt : Nat → K) (x : Nat → X) (u : Nat → U) : Prop :=
  p.start (x 0) ∧ (∀ k < N, x (k + 1) = p.step (dt k) (x k) (u k)) ∧ (∀ k < N, p.B (u k))
    ∧ (∀ k < N, if k = 0 then p.C0 (x k) (u k) else p.C (x k) (u k)) ∧ p.CT (x N)

/-- its cost -/
def cost (p : Prob X U K) (N : Nat) (dt : Nat → K) (x : Nat → X) (u : Nat → U) : K :=
  (∑ k ∈ range N, dt k * (if k = 0 then p.l0 (x k) (u k) else p.l (x k) (u k))) + p.lT (x N)

/-- control horizon of `Nc` intervals: the control of the last of them is kept until the end -/
def Held (Nc N : Nat) (u : Nat → U) : Prop := ∀ k, Nc - 1 ≤ k → k < N → u k = u (Nc - 1)

/-- one step of an explicit Runge-Kutta method with `s` stages: the list of stage derivatives -/
def rkStages {V : Type} [AddCommGroup V] [Module K V] (A : Nat → Nat → K) (h : K) (f : V → V) (x : V) : Nat → (Nat → V)
  | 0 => fun _ => 0
  | s + 1 =>
    let ks := rkStages A h f x s
    fun i => if i = s then f (x + h • ∑ j ∈ range s, A s j • ks j) else ks i

def rkStep {V : Type} [AddCommGroup V] [Module K V] (s : Nat) (A : Nat → Nat → K) (b : Nat → K) (h : K) (f : V → V) (x : V) : V :=
  x + h • ∑ i ∈ range s, b i • rkStages A h f x s i

/-- `n` steps -/
def rk {V : Type} [AddCommGroup V] [Module K V] (s : Nat) (A : Nat → Nat → K) (b : Nat → K) (h : K) (f : V → V) (n : Nat) (x : V) : V :=
  (rkStep s A b h f)^[n] x

/-- stage derivatives of an implicit Runge-Kutta method for `F xdot x = 0` -/
def IrkStages {V W : Type} [AddCommGroup V] [Module K V] [Zero W] (s : Nat) (A : Nat → Nat → K) (h : K) (F : V → V → W) (x : V) (ks : Nat → V) :
    Prop := ∀ i < s, F (ks i) (x + h • ∑ j ∈ range s, A i j • ks j) = 0

end Acados.ControlHorizon
