import Verif.Model.Zoro
import Mathlib.Algebra.Order.BigOperators.Ring.Finset
/-!
# Specification of the zero-order robust optimisation update

The linear error dynamics, its disturbances, the covariance recursion, and the values the constraint functions
take under a disturbance.  Nothing here refers to the memory of the update.
-/
namespace Acados.Zoro
open Matrix
variable {K : Type*} [Field K] [LinearOrder K] {d : Dims}

/-- `c^T P c` -/
def quad {n : Nat} (P : Mat K n n) (c : Fin n → K) : K := c ⬝ᵥ (P *ᵥ c)

def Sym {n : Nat} (P : Mat K n n) : Prop := Pᵀ = P
def Psd {n : Nat} (P : Mat K n n) : Prop := ∀ c, 0 ≤ quad P c

/-- matrix of the error dynamics with the feedback `u - K e` -/
def clA (l : Lin K d) (gain : Nat → Mat K d.nu d.nx) (k : Nat) : Mat K d.nx d.nx := l.A k - l.B k * gain k

/-- covariance of independent contributions: `P+ = (A - B K) P (A - B K)^T + G W G^T + S Sigma S^T` -/
def covS (l : Lin K d) (gain : Nat → Mat K d.nu d.nx) (G : Mat K d.nx d.nw) (W : Nat → Mat K d.nw d.nw)
    (Sigma : Mat K d.np d.np) (P0 : Mat K d.nx d.nx) : Nat → Mat K d.nx d.nx
  | 0 => P0
  | k + 1 => clA l gain k * covS l gain G W Sigma P0 k * (clA l gain k)ᵀ + G * W k * Gᵀ
      + l.Sp k * Sigma * (l.Sp k)ᵀ

/-- sensitivity of the error to a constant parameter error: `Pi+ = (A - B K) Pi + S` -/
def parS (l : Lin K d) (gain : Nat → Mat K d.nu d.nx) : Nat → Mat K d.nx d.np
  | 0 => 0
  | k + 1 => clA l gain k * parS l gain k + l.Sp k

/-- the uncertainty matrices of the three modes -/
def cov (mode : Mode) (l : Lin K d) (gain : Nat → Mat K d.nu d.nx) (G : Mat K d.nx d.nw)
    (W : Nat → Mat K d.nw d.nw) (Sigma : Mat K d.np d.np) (P0 : Mat K d.nx d.nx) (k : Nat) : Mat K d.nx d.nx :=
  match mode with
  | .none => covS l gain G W 0 P0 k
  | .noise => covS l gain G W Sigma P0 k
  | .constant => covS l gain G W 0 P0 k + parS l gain k * Sigma * (parS l gain k)ᵀ

/-- a realisation of the uncertainty: errors, process noise, stagewise parameter errors, constant parameter
error -/
structure Dist (K : Type*) (d : Dims) where
  e : Nat → Fin d.nx → K
  w : Nat → Fin d.nw → K
  q : Nat → Fin d.np → K
  p : Fin d.np → K

/-- the linearised closed loop: with the input `u - K e` the error obeys
`e+ = (A - B K) e + G w + S (q + p)` -/
def Loop (l : Lin K d) (gain : Nat → Mat K d.nu d.nx) (G : Mat K d.nx d.nw) (z : Dist K d) : Prop :=
  ∀ k < d.N, z.e (k + 1) = clA l gain k *ᵥ z.e k + G *ᵥ z.w k + l.Sp k *ᵥ (z.q k + z.p)

/-- The initial error and all disturbances lie together in the ellipsoid, scaled by `gamma`, of the covariances
`P0`, `W k`, `Sigma`.  The ellipsoid is given by its support function: a linear function of the disturbances
squared is at most `gamma^2` times its variance.  Parameter errors are present as the mode says. -/
def Admissible (mode : Mode) (gamma : K) (P0 : Mat K d.nx d.nx) (W : Nat → Mat K d.nw d.nw)
    (Sigma : Mat K d.np d.np) (z : Dist K d) : Prop :=
  (mode ≠ .noise → ∀ k, z.q k = 0) ∧ (mode ≠ .constant → z.p = 0) ∧
  ∀ (c0 : Fin d.nx → K) (cw : Nat → Fin d.nw → K) (cq : Nat → Fin d.np → K) (cp : Fin d.np → K),
    (c0 ⬝ᵥ z.e 0 + (∑ k ∈ Finset.range d.N, (cw k ⬝ᵥ z.w k + cq k ⬝ᵥ z.q k)) + cp ⬝ᵥ z.p) ^ 2
      ≤ gamma ^ 2 * (quad P0 c0 + (∑ k ∈ Finset.range d.N, (quad (W k) (cw k) + quad Sigma (cq k))) + quad Sigma cp)

/-- the process noise covariance of step `k`: `W`, plus the `k`-th block of additional variances of the payload
if there is one -/
def noiseAt (ds : Desc K d) (W : Mat K d.nw d.nw) (data : List K) (k : Nat) : Mat K d.nw d.nw :=
  if ds.inWadd then W + diagonal fun i : Fin d.nw => data.getD (offWadd ds + (d.nw * k + i)) 0 else W

/-- a diagonal of a payload replaces the diagonal, except where it is negative -/
def newDiag {n : Nat} (v : Fin n → K) (M : Mat K n n) : Mat K n n := fun i j =>
  if i = j then if v i < 0 then M i i else v i else M i j

/-- value of a row, `v` without disturbance, after a change of state and input; exact for bounds and linear
constraints, to first order for nonlinear ones -/
def rowAt (n : Nlp K d) (l : Lin K d) (k : Nat) (v : K) (dx : Fin d.nx → K) (du : Fin d.nu → K) : Row d → K
  | .bu i => v + du (n.idxbu i)
  | .bx i => v + dx (n.idxbx i)
  | .g i => v + n.Cg i ⬝ᵥ dx + n.Dg i ⬝ᵥ du
  | .h i => v + l.C k (Fin.natAdd d.ng i) ⬝ᵥ dx + l.D k (Fin.natAdd d.ng i) ⬝ᵥ du

/-- the same at the terminal stage, where there is no input -/
def rowAtE (n : Nlp K d) (l : Lin K d) (v : K) (dx : Fin d.nx → K) : RowE d → K
  | .bx i => v + dx (n.idxbxe i)
  | .g i => v + n.Cge i ⬝ᵥ dx
  | .h i => v + l.Ce (Fin.natAdd d.nge i) ⬝ᵥ dx

/-- what the update is meant to use: the square root -/
def SqrtOk (sq : K → K) : Prop := ∀ x, 0 ≤ x → 0 ≤ sq x ∧ sq x * sq x = x

/-- memories that creation and any number of successful updates lead to; linearisations, gains, payloads and
the NLP may change from update to update -/
inductive Reach (sq : K → K) (ds : Desc K d) (n0 : Nlp K d) : Mem K d → Prop
  | init (b : K) : Reach sq ds n0 (init ds n0 b)
  | step {m m' n n' l gain data out} : Reach sq ds n0 m → updateWith sq ds l gain data m n = .ok m' n' out →
      Reach sq ds n0 m'

end Acados.Zoro
