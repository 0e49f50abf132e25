import Verif.Model.Irk
/-!
# Specification of the implicit Runge-Kutta integrator

The Runge-Kutta (RK) scheme for `f(x, ẋ, u, z, t) = 0`, with stage derivatives `k_i` and stage algebraic
variables `z_i` as separate families, its linearisation and its second-order propagation.
-/
namespace Acados.Irk
open Matrix
variable {K : Type*} [Field K] [LinearOrder K]

/-- stage derivative `k_i` in the stage vector `(k_1, …, k_ns, z_1, …, z_ns)` -/
def kB (d : Dims) (v : Fin (nK d) → K) (i : Fin d.s) (c : Fin d.nx) : K :=
  v ⟨i.val * d.nx + c.val, by
    have h1 : (i.val + 1) * d.nx ≤ d.s * d.nx := Nat.mul_le_mul_right _ i.isLt
    have h2 := c.isLt
    have : (d.nx + d.nz) * d.s = d.s * d.nx + d.s * d.nz := by ring
    have : (i.val + 1) * d.nx = i.val * d.nx + d.nx := by ring
    unfold nK; omega⟩

/-- algebraic variables `z_i` in the stage vector -/
def zB (d : Dims) (v : Fin (nK d) → K) (i : Fin d.s) (c : Fin d.nz) : K :=
  v ⟨d.s * d.nx + i.val * d.nz + c.val, by
    have h1 : (i.val + 1) * d.nz ≤ d.s * d.nz := Nat.mul_le_mul_right _ i.isLt
    have h2 := c.isLt
    have : (d.nx + d.nz) * d.s = d.s * d.nx + d.s * d.nz := by ring
    have : (i.val + 1) * d.nz = i.val * d.nz + d.nz := by ring
    unfold nK; omega⟩

/-- stage value `x + h ∑_j a_{ij} k_j`; `A_mat` is column-major, `a_{ij} = A_mat[i + s j]` -/
def stageOf {s n : Nat} (o : Opts K) (h : K) (x : Fin n → K) (k : Fin s → Fin n → K) (i : Fin s) : Fin n → K :=
  fun r => x r + h * ∑ j : Fin s, o.A_mat (i.val + s * j.val) * k j r

/-- next state `x + h ∑_i b_i k_i` -/
def nextOf {s n : Nat} (o : Opts K) (h : K) (x : Fin n → K) (k : Fin s → Fin n → K) : Fin n → K :=
  fun r => x r + h * ∑ i : Fin s, o.b_vec i.val * k i r

/-- a point at which a step is taken or linearised: initial state, stage derivatives, stage algebraic
variables, time at the beginning of the step -/
structure Pt (d : Dims) (K : Type*) where
  x : Fin d.nx → K
  k : Fin d.s → Fin d.nx → K
  z : Fin d.s → Fin d.nz → K
  t : K

/-- a model function evaluated at stage `i`, at time `t + c_i h` -/
def atStage {d : Dims} {α : Type*} (o : Opts K) (h : K) (u : Fin d.nu → K) (P : Pt d K) (i : Fin d.s)
    (F : (Fin d.nx → K) → (Fin d.nx → K) → (Fin d.nu → K) → (Fin d.nz → K) → K → α) : α :=
  F (stageOf o h P.x P.k i) (P.k i) u (P.z i) (P.t + o.c_vec i.val * h)

/-- derivative of the `i`-th stage equation at `P` in the direction `(δx, δu, δk, δz)` -/
def tangent {d : Dims} (o : Opts K) (h : K) (e : Ext d K) (u : Fin d.nu → K) (P : Pt d K)
    (δx : Fin d.nx → K) (δu : Fin d.nu → K) (δk : Fin d.s → Fin d.nx → K) (δz : Fin d.s → Fin d.nz → K)
    (i : Fin d.s) : Fin (d.nx + d.nz) → K :=
  atStage o h u P i e.fx *ᵥ stageOf o h δx δk i + atStage o h u P i e.fk *ᵥ δk i
    + atStage o h u P i e.fz *ᵥ δz i + atStage o h u P i e.fu *ᵥ δu

/-- the stage equations of an RK step hold at `P` -/
def Solves {d : Dims} (o : Opts K) (h : K) (e : Ext d K) (u : Fin d.nu → K) (P : Pt d K) : Prop :=
  ∀ i, atStage o h u P i e.f = 0

/-- the linearised stage equations at `P` have a unique solution -/
def Regular {d : Dims} (o : Opts K) (h : K) (e : Ext d K) (u : Fin d.nu → K) (P : Pt d K) : Prop :=
  ∀ δk δz, (∀ i, tangent o h e u P 0 0 δk δz i = 0) → δk = 0 ∧ δz = 0

/-- Newton's method for the stage equations from the guess `(k, z)`: at most `n` corrections `(δk, δz)`,
each the solution of the linearised stage equations, where the linearisation point of the iterate `P` is
`lin P`; it stops early when a positive tolerance exceeds all components of a correction.  A correction
computed where the linearised stage equations are singular is left unspecified. -/
inductive NewtonRun {d : Dims} (o : Opts K) (h : K) (e : Ext d K) (u : Fin d.nu → K) (lin : Pt d K → Pt d K)
    (x : Fin d.nx → K) (t : K) : Nat → (Fin d.s → Fin d.nx → K) → (Fin d.s → Fin d.nz → K) →
      (Fin d.s → Fin d.nx → K) → (Fin d.s → Fin d.nz → K) → Prop where
  | out (k z) : NewtonRun o h e u lin x t 0 k z k z
  | stop (n k z δk δz) :
      (Regular o h e u (lin ⟨x, k, z, t⟩) →
        ∀ i, tangent o h e u (lin ⟨x, k, z, t⟩) 0 0 δk δz i = atStage o h u ⟨x, k, z, t⟩ i e.f) →
      0 < o.newton_tol → (∀ i c, |δk i c| < o.newton_tol) → (∀ i c, |δz i c| < o.newton_tol) →
      NewtonRun o h e u lin x t (n + 1) k z (k - δk) (z - δz)
  | more (n k z δk δz k' z') :
      (Regular o h e u (lin ⟨x, k, z, t⟩) →
        ∀ i, tangent o h e u (lin ⟨x, k, z, t⟩) 0 0 δk δz i = atStage o h u ⟨x, k, z, t⟩ i e.f) →
      (o.newton_tol ≤ 0 ∨ (∃ i c, o.newton_tol ≤ |δk i c|) ∨ ∃ i c, o.newton_tol ≤ |δz i c|) →
      NewtonRun o h e u lin x t n (k - δk) (z - δz) k' z' →
      NewtonRun o h e u lin x t (n + 1) k z k' z'

/-- where a step is linearised: at the point itself, or at a given earlier point -/
def linAt {d : Dims} : Option (Pt d K) → Pt d K → Pt d K
  | none, P => P
  | some Q, _ => Q

/-- a step as a point -/
def StepOut.pt {d : Dims} (s : StepOut d K) (t : K) : Pt d K := ⟨s.x0, kB d s.k, zB d s.k, t⟩

/-- the linearised stage equations have a unique solution at every step of a list starting at time `t` -/
def RegularAlong {d : Dims} (o : Opts K) (h : K) (e : Ext d K) (u : Fin d.nu → K) : K → List (StepOut d K) → Prop
  | _, [] => True
  | t, s :: l => Regular o h e u (s.pt t) ∧ RegularAlong o h e u (t + h) l

/-- Consecutive RK steps with Newton's method, from time `t`, state `x` and stage guess `(k, z)`.  `lin` is
the linearisation point used by the next step (`none`: each iterate's own); `upd s t lin` the one used
after step `s` taken at time `t`.  Each step starts from the state the previous one ended in, and from its
stage values as guess. -/
inductive Run {d : Dims} (o : Opts K) (h : K) (e : Ext d K) (u : Fin d.nu → K)
    (upd : Pt d K → Option (Pt d K) → Option (Pt d K)) : Option (Pt d K) → K → (Fin d.nx → K) →
    (Fin d.s → Fin d.nx → K) → (Fin d.s → Fin d.nz → K) → List (StepOut d K) → Prop where
  | nil (lin t x k z) : Run o h e u upd lin t x k z []
  | cons (lin t x k z s l) : s.x0 = x →
      NewtonRun o h e u (linAt lin) x t o.newton_iter k z (kB d s.k) (zB d s.k) →
      s.x = nextOf o h x (kB d s.k) →
      Run o h e u upd (upd (s.pt t) lin) (t + h) s.x (kB d s.k) (zB d s.k) l →
      Run o h e u upd lin t x k z (s :: l)

/-- The step linearised at `P` in direction `(δx, δu)`, with inhomogeneity `g` in the stage equations:
`(δk, δz)` solve the linearised stage equations, and `δx'` is the resulting change of the next state. -/
structure LinStep {d : Dims} (o : Opts K) (h : K) (e : Ext d K) (u : Fin d.nu → K) (P : Pt d K)
    (g : Fin d.s → Fin (d.nx + d.nz) → K) (δx : Fin d.nx → K) (δu : Fin d.nu → K)
    (δk : Fin d.s → Fin d.nx → K) (δz : Fin d.s → Fin d.nz → K) (δx' : Fin d.nx → K) : Prop where
  eqs : ∀ i, tangent o h e u P δx δu δk δz i + g i = 0
  next : δx' = nextOf o h δx δk

/-- linearised steps along a list of steps starting at time `t`; `g` gives the inhomogeneity at each point -/
inductive LinRun {d : Dims} (o : Opts K) (h : K) (e : Ext d K) (u : Fin d.nu → K)
    (g : Pt d K → Fin d.s → Fin (d.nx + d.nz) → K) (δu : Fin d.nu → K) : K → List (StepOut d K) →
    (Fin d.nx → K) → (Fin d.nx → K) → Prop where
  | nil (t δx) : LinRun o h e u g δu t [] δx δx
  | cons (t s l δx δk δz σ τ) : LinStep o h e u (s.pt t) (g (s.pt t)) δx δu δk δz σ →
      LinRun o h e u g δu (t + h) l σ τ → LinRun o h e u g δu t (s :: l) δx τ

/-- first `m` entries -/
def fstP {m n : Nat} (w : Fin (m + n) → K) : Fin m → K := fun i => w (Fin.castAdd n i)
/-- last `n` entries -/
def sndP {m n : Nat} (w : Fin (m + n) → K) : Fin n → K := fun i => w (Fin.natAdd m i)

/-- `(x, ẋ, z, u)` as one vector, the variable order of the generated Hessian function -/
def cat4 {d : Dims} (x k : Fin d.nx → K) (z : Fin d.nz → K) (u : Fin d.nu → K) :
    Fin (2 * d.nx + d.nz + d.nu) → K := fun c =>
  if h : c.val < d.nx then x ⟨c.val, h⟩
  else if h : c.val < 2 * d.nx then k ⟨c.val - d.nx, by omega⟩
  else if h : c.val < 2 * d.nx + d.nz then z ⟨c.val - 2 * d.nx, by omega⟩
  else u ⟨c.val - (2 * d.nx + d.nz), by omega⟩

/-- second derivatives of the components of `f` with respect to `(x, ẋ, z, u)` -/
abbrev Second (d : Dims) (K : Type*) :=
  (Fin d.nx → K) → (Fin d.nx → K) → (Fin d.nu → K) → (Fin d.nz → K) → K → Fin (d.nx + d.nz) →
    Matrix (Fin (2 * d.nx + d.nz + d.nu)) (Fin (2 * d.nx + d.nz + d.nu)) K

/-- `f''(v, w)` -/
def bil {n m : Nat} (F : Fin m → Matrix (Fin n) (Fin n) K) (v w : Fin n → K) : Fin m → K :=
  fun r => v ⬝ᵥ (F r *ᵥ w)

/-- Second-order propagation of the steps in the directions `p`, `q` (perturbations of control
`δu_p`, `δu_q`): first-order tangents `δx_p`, `δx_q` and second-order tangent `δ2` of the state, from the
beginning to the end of the list.  At each step the second-order stage derivatives solve the linearised
stage equations with inhomogeneity `f''` applied to the first-order stage tangents. -/
inductive Lin2Run {d : Dims} (o : Opts K) (h : K) (e : Ext d K) (f2 : Second d K) (u : Fin d.nu → K)
    (δup δuq : Fin d.nu → K) : K → List (StepOut d K) → (Fin d.nx → K) → (Fin d.nx → K) →
    (Fin d.nx → K) → (Fin d.nx → K) → Prop where
  | nil (t δp δq δ2) : Lin2Run o h e f2 u δup δuq t [] δp δq δ2 δ2
  | cons (t s l δp δq δ2 kp zp σp kq zq σq k2 z2 σ2 τ) :
      LinStep o h e u (s.pt t) 0 δp δup kp zp σp → LinStep o h e u (s.pt t) 0 δq δuq kq zq σq →
      LinStep o h e u (s.pt t)
        (fun i => bil (atStage o h u (s.pt t) i f2)
          (cat4 (stageOf o h δp kp i) (kp i) (zp i) δup) (cat4 (stageOf o h δq kq i) (kq i) (zq i) δuq))
        δ2 0 k2 z2 σ2 →
      Lin2Run o h e f2 u δup δuq (t + h) l σp σq σ2 τ →
      Lin2Run o h e f2 u δup δuq t (s :: l) δp δq δ2 τ

end Acados.Irk
