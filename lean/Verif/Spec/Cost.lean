import Mathlib.Algebra.BigOperators.Ring.Finset
import Mathlib.Analysis.Calculus.Deriv.Basic
import Mathlib.Data.Real.Basic
/-!
# Specification of stage costs

The stage variables are `w = (u, x, s)`: `nu + nx` controls and states followed by `2 ns` slacks.
-/
namespace Acados.Cost
open Finset

section
variable {K : Type*} [Field K]

/-- symmetric matrix given by its lower triangle -/
def symL (W : Nat → Nat → K) (i j : Nat) : K := if j ≤ i then W i j else W j i

/-- the last written data of a linear least-squares cost -/
structure LsData (K : Type*) where
  W : Nat → Nat → K
  /-- row: output, column: control -/
  Vu : Nat → Nat → K
  /-- row: output, column: state -/
  Vx : Nat → Nat → K
  Vz : Nat → Nat → K
  yref : Nat → K
  /-- linear slack weights: `ns` lower, then `ns` upper -/
  sz : Nat → K
  /-- quadratic slack weights -/
  sZ : Nat → K
  scaling : K

/-- `Vx x + Vu u + Vz z - yref` -/
def LsData.res (d : LsData K) (nu nx nz : Nat) (w z : Nat → K) (y : Nat) : K :=
  ∑ i ∈ range nu, d.Vu y i * w i + ∑ i ∈ range nx, d.Vx y i * w (nu + i) + ∑ k ∈ range nz, d.Vz y k * z k - d.yref y

/-- `½ rᵀ W r` -/
def halfSq (ny : Nat) (W : Nat → Nat → K) (r : Nat → K) : K :=
  1 / 2 * ∑ i ∈ range ny, ∑ j ∈ range ny, symL W i j * r i * r j

/-- slack penalty `zᵀ s + ½ sᵀ Z s`, slacks stored after the `nv` controls and states -/
def slackCost (nv ns2 : Nat) (sz sZ w : Nat → K) : K :=
  ∑ i ∈ range ns2, (sz i * w (nv + i) + 1 / 2 * sZ i * w (nv + i) * w (nv + i))

/-- value of the linear least-squares stage cost -/
def LsData.value (d : LsData K) (nu nx nz ny ns : Nat) (w z : Nat → K) : K :=
  d.scaling * (halfSq ny d.W (d.res nu nx nz w z) + slackCost (nu + nx) (2 * ns) d.sz d.sZ w)

/-- derivative of the residual with respect to variable `i` of `(u, x)`, with `dz i k = ∂z_k/∂w_i` -/
def LsData.jac (d : LsData K) (nu nz : Nat) (dz : Nat → Nat → K) (i y : Nat) : K :=
  (if i < nu then d.Vu y i else d.Vx y (i - nu)) + ∑ k ∈ range nz, dz i k * d.Vz y k

/-- Hessian in `(u, x)` of a function of `(u, x, z)` with Hessian blocks `hux`, `hzz`, `hzux` (row: `z`) when `z`
depends on `(u, x)` with Jacobian `dz i k = ∂z_k/∂w_i` and vanishing second derivative:
`hux + dz hzux + (dz hzux)ᵀ + dz hzz dzᵀ` -/
def projHess (nz : Nat) (hux hzz hzux dz : Nat → Nat → K) (i j : Nat) : K :=
  hux i j + ∑ k ∈ range nz, (dz i k * hzux k j + dz j k * hzux k i)
    + ∑ k ∈ range nz, ∑ l ∈ range nz, dz i k * hzz k l * dz j l

end

/-- `f` (a function of the first `n` entries of a vector) is differentiable at `w` with gradient `g`: along every
differentiable curve through `w` the derivative is the inner product with `g` (equivalent to Fréchet
differentiability in finite dimension). -/
def HasGrad (n : Nat) (f : (Nat → ℝ) → ℝ) (g w : Nat → ℝ) : Prop :=
  ∀ (c : ℝ → Nat → ℝ) (d : Nat → ℝ), c 0 = w → (∀ i < n, HasDerivAt (fun t => c t i) (d i) 0) →
    HasDerivAt (fun t => f (c t)) (∑ i ∈ range n, g i * d i) 0

/-- `f`, a function of the first `n` entries of `w` and the first `m` of `z`, is differentiable at `(w, z)` with
partial gradients `g` and `h` -/
def HasGrad2 (n m : Nat) (f : (Nat → ℝ) → (Nat → ℝ) → ℝ) (g h w z : Nat → ℝ) : Prop :=
  ∀ (c e : ℝ → Nat → ℝ) (d d' : Nat → ℝ), c 0 = w → e 0 = z → (∀ i < n, HasDerivAt (fun t => c t i) (d i) 0) →
    (∀ i < m, HasDerivAt (fun t => e t i) (d' i) 0) →
    HasDerivAt (fun t => f (c t) (e t)) (∑ i ∈ range n, g i * d i + ∑ k ∈ range m, h k * d' k) 0

end Acados.Cost
