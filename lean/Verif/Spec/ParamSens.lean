import Verif.Model.ParamSens
/-!
# Specification: derivative of the solution with respect to a parameter

The optimality conditions of the NLP at stage `i` are: stationarity of the Lagrangian
`Σᵢ cᵢ ℓᵢ + πᵢᵀ(φᵢ - xᵢ₊₁) + (λᵘ - λˡ)ᵀ hᵢ + …`, the dynamics `φᵢ - xᵢ₊₁ = 0`, and `λ t = τ` with the slacks
`t = T v - d` of all inequalities (`d` holds lower bounds and negated upper bounds).  Differentiating them in the
direction of one parameter gives the linear system below for the derivative `(v', π', λ')` of the solution.
-/
namespace Acados.PSens.Spec
open Finset
open Acados.PSens (Dims Prob Mult Sol Seed)
variable {K : Type*} [Field K]

/-- first derivatives of the optimality conditions with respect to the variables -/
structure Lin (K : Type*) where
  /-- Hessian of the Lagrangian of stage `i` -/
  H : Nat → Nat → Nat → K
  /-- Jacobian of `φᵢ`, row `c` -/
  A : Nat → Nat → Nat → K
  /-- gradient of the slack `t` of inequality `q` (lower sides, upper sides, slack bounds) -/
  T : Nat → Nat → Nat → K
  /-- multipliers and slacks of the inequalities at the solution -/
  lam : Nat → Nat → K
  t : Nat → Nat → K

/-- left-hand side of the differentiated stationarity condition without the parameter term -/
def statLhs (d : Dims) (L : Lin K) (s : Sol K) (i r : Nat) : K :=
  (∑ v ∈ range (d.nv i), L.H i r v * s.ux i v)
  + (if i < d.N ∧ r < d.nu i + d.nx i then ∑ c ∈ range (d.nx (i + 1)), L.A i c r * s.pi i c else 0)
  - (if 0 < i ∧ d.nu i ≤ r ∧ r < d.nu i + d.nx i then s.pi (i - 1) (r - d.nu i) else 0)
  - ∑ q ∈ range (2 * d.ni i), L.T i q r * s.lam i q

/-- the differentiated optimality conditions; `g`, `b`, `dd` are the derivatives of the stationarity condition, the
dynamics and the vector `d` with respect to the parameter -/
structure Diff (d : Dims) (L : Lin K) (g b dd : Nat → Nat → K) (s : Sol K) : Prop where
  stat : ∀ i, i ≤ d.N → ∀ r, r < d.nv i → statLhs d L s i r + g i r = 0
  dyn : ∀ i, i < d.N → ∀ c, c < d.nx (i + 1) →
    (∑ r ∈ range (d.nu i + d.nx i), L.A i c r * s.ux i r) - s.ux (i + 1) (d.nu (i + 1) + c) + b i c = 0
  comp : ∀ i, i ≤ d.N → ∀ q, q < 2 * d.ni i →
    L.lam i q * ((∑ v ∈ range (d.nv i), L.T i q v * s.ux i v) - dd i q) + L.t i q * s.lam i q = 0

/-- multiplier of `hᵢ_j` in the Lagrangian: upper minus lower -/
def lamDiff (d : Dims) (μ : Mult K) (i j : Nat) : K :=
  μ.lam i ((d.nb i + d.ng i + d.nh i) + (d.nb i + d.ng i + j)) - μ.lam i (d.nb i + d.ng i + j)

/-- derivative of the stationarity condition with respect to `p_k`; slacks do not depend on `p` -/
def gP (d : Dims) (P : Prob K) (μ : Mult K) (k i r : Nat) : K :=
  if r < d.nu i + d.nx i then
    (if P.ext i then P.scaling i * P.lxp i r k else 0)
    + (if i < d.N then ∑ c ∈ range (d.nx (i + 1)), μ.pi i c * P.fxp i c r k else 0)
    + ∑ j ∈ range (d.nh i), lamDiff d μ i j * P.hxp i j r k
  else 0

/-- derivative of the dynamics with respect to `p_k` -/
def bP (P : Prob K) (k i c : Nat) : K := P.fp i c k

/-- derivative of `d` with respect to `p_k`: `lh - h` in the lower, `h - uh` in the upper half -/
def dP (d : Dims) (P : Prob K) (k i q : Nat) : K :=
  let o := d.nb i + d.ng i
  let n := d.nb i + d.ng i + d.nh i
  if o ≤ q ∧ q < n then - P.hp i (q - o) k
  else if n + o ≤ q ∧ q < n + n then P.hp i (q - (n + o)) k
  else 0

/-- derivative of `d` with respect to a common value of both sides of bound `row` of stage 0: the lower side is `lb`,
the upper side `-ub` -/
def dX (d : Dims) (row i q : Nat) : K :=
  if i = 0 ∧ q = row then 1
  else if i = 0 ∧ q = (d.nb 0 + d.ng 0 + d.nh 0) + row then -1
  else 0

/-- derivative of the Lagrangian with respect to `p_k` -/
def lagP (d : Dims) (P : Prob K) (μ : Mult K) (k : Nat) : K :=
  (∑ i ∈ range (d.N + 1), if P.ext i then P.scaling i * P.lp i k else 0)
  + (∑ i ∈ range d.N, ∑ c ∈ range (d.nx (i + 1)), μ.pi i c * P.fp i c k)
  + ∑ i ∈ range (d.N + 1), ∑ j ∈ range (d.nh i), lamDiff d μ i j * P.hp i j k

/-- directional value `⟨s, v'⟩` of the primal sensitivity -/
def pair (d : Dims) (s : Nat → Nat → K) (v : Sol K) : K :=
  ∑ i ∈ range (d.N + 1), ∑ r ∈ range (d.nv i), s i r * v.ux i r

/-- contract of the forward sensitivity routine of the QP solver: it solves the differentiated conditions for the
given seeds -/
def ForwOk (d : Dims) (L : Lin K) (forw : Seed K → Sol K) : Prop := ∀ s, Diff d L s.g s.b s.d (forw s)

/-- contract of the adjoint routine for seeds in the primal variables only: it solves the transposed system (which
is the same system, scaled by the multipliers) -/
def AdjOk (d : Dims) (L : Lin K) (adj : Seed K → Sol K) : Prop :=
  ∀ g, Diff d L g (fun _ _ => 0) (fun _ _ => 0) (adj ⟨g, fun _ _ => 0, fun _ _ => 0⟩)

end Acados.PSens.Spec
