import Verif.Spec.OcpQp
/-!
# The problem qpDUNES solves

Stage variables `z = [x; u]`, dynamics `x⁺ = C z + c`, bounds, and two-sided rows.  A bound at or beyond the number that
stands for infinity is no bound.  The multipliers `y` of a stage are pairs (lower, upper), first those of the bounds,
then those of the rows.
-/
namespace Acados.Dunes
open Finset
open Acados.QpScal (Stage Qp WF)
variable {K : Type*} [Field K] [LinearOrder K]

/-- one interval -/
structure DStage (K : Type*) where
  H : Nat → Nat → K
  g : Nat → K
  C : Nat → Nat → K
  c : Nat → K
  zLow : Nat → K
  zUpp : Nat → K
  D : Nat → Nat → K
  dLow : Nat → K
  dUpp : Nat → K

/-- the problem: `N` intervals with `nx + nu` variables, and a last one with `nx` -/
structure DQp (K : Type*) where
  N : Nat
  nx : Nat
  nu : Nat
  nD : Nat → Nat
  st : Nat → DStage K

/-- number of variables of an interval -/
def DQp.nv (p : DQp K) (k : Nat) : Nat := if k < p.N then p.nx + p.nu else p.nx

/-- value of row `i` -/
def DQp.row (p : DQp K) (k : Nat) (z : Nat → K) (i : Nat) : K := ∑ j ∈ range (p.nv k), (p.st k).D i j * z j

/-- feasible points -/
structure DFeasible (inf : K) (p : DQp K) (z : Nat → Nat → K) : Prop where
  dyn : ∀ k < p.N, ∀ i < p.nx, (∑ j ∈ range (p.nv k), (p.st k).C i j * z k j) + (p.st k).c i = z (k + 1) i
  low : ∀ k ≤ p.N, ∀ j < p.nv k, -inf < (p.st k).zLow j → (p.st k).zLow j ≤ z k j
  upp : ∀ k ≤ p.N, ∀ j < p.nv k, (p.st k).zUpp j < inf → z k j ≤ (p.st k).zUpp j
  rlow : ∀ k ≤ p.N, ∀ i < p.nD k, (p.st k).dLow i ≤ p.row k (z k) i
  rupp : ∀ k ≤ p.N, ∀ i < p.nD k, p.row k (z k) i ≤ (p.st k).dUpp i

/-- objective -/
def dvalue (p : DQp K) (z : Nat → Nat → K) : K :=
  ∑ k ∈ range (p.N + 1), ((1/2) * (∑ i ∈ range (p.nv k), z k i * ∑ j ∈ range (p.nv k), (p.st k).H i j * z k j) +
    ∑ i ∈ range (p.nv k), (p.st k).g i * z k i)

/-- minimisers -/
def DIsMin (inf : K) (p : DQp K) (z : Nat → Nat → K) : Prop :=
  DFeasible inf p z ∧ ∀ z', DFeasible inf p z' → dvalue p z ≤ dvalue p z'

/-- gradient of the Lagrangian with respect to entry `j` of interval `k` -/
def dlag (p : DQp K) (z lam y : Nat → Nat → K) (k j : Nat) : K :=
  (∑ c ∈ range (p.nv k), (p.st k).H j c * z k c) + (p.st k).g j +
  (if k < p.N then ∑ i ∈ range p.nx, (p.st k).C i j * lam k i else 0) -
  (if 0 < k ∧ j < p.nx then lam (k - 1) j else 0) -
  (y k (2 * j) - y k (2 * j + 1)) -
  ∑ i ∈ range (p.nD k), (p.st k).D i j * (y k (2 * p.nv k + 2 * i) - y k (2 * p.nv k + 2 * i + 1))

/-- optimality conditions -/
structure DKkt (inf : K) (p : DQp K) (z lam y : Nat → Nat → K) : Prop where
  feas : DFeasible inf p z
  stat : ∀ k ≤ p.N, ∀ j < p.nv k, dlag p z lam y k j = 0
  low : ∀ k ≤ p.N, ∀ j < p.nv k, 0 ≤ y k (2 * j) ∧ ((p.st k).zLow j ≤ -inf → y k (2 * j) = 0) ∧
    y k (2 * j) * (z k j - (p.st k).zLow j) = 0
  upp : ∀ k ≤ p.N, ∀ j < p.nv k, 0 ≤ y k (2 * j + 1) ∧ (inf ≤ (p.st k).zUpp j → y k (2 * j + 1) = 0) ∧
    y k (2 * j + 1) * ((p.st k).zUpp j - z k j) = 0
  rlow : ∀ k ≤ p.N, ∀ i < p.nD k, 0 ≤ y k (2 * p.nv k + 2 * i) ∧
    y k (2 * p.nv k + 2 * i) * (p.row k (z k) i - (p.st k).dLow i) = 0
  rupp : ∀ k ≤ p.N, ∀ i < p.nD k, 0 ≤ y k (2 * p.nv k + 2 * i + 1) ∧
    y k (2 * p.nv k + 2 * i + 1) * ((p.st k).dUpp i - p.row k (z k) i) = 0

/-! ### The QP of acados and the problem of qpDUNES -/

/-- entry of `[u; x]` at position `j` of `[x; u]` -/
def upos (nx nu j : Nat) : Nat := if j < nx then nu + j else j - nx

/-- the lower triangle is the upper one -/
def SymOn (n : Nat) (M : Nat → Nat → K) : Prop := ∀ i < n, ∀ j < n, M i j = M j i

/-- what is needed of a stage -/
structure StageOk (nx nu : Nat) (s : Stage K) : Prop where
  sym : SymOn (nu + nx) s.H
  idxb : ∀ i < s.nb, s.idxb i < nu + nx
  inj : ∀ i < s.nb, ∀ j < s.nb, s.idxb i = s.idxb j → i = j

/-- dimensions that `memory_assign` accepts and data that fit -/
structure QpOk (q : Qp K) : Prop where
  nx : ∀ k ≤ q.N, q.nx k = q.nx 0
  nu : ∀ k < q.N, q.nu k = q.nu 0
  nuN : q.nu q.N = 0
  st : ∀ k ≤ q.N, StageOk (q.nx k) (q.nu k) (q.st k)

/-- the QP of the caller is as before, except that triangles of the Hessians are copied -/
structure SameQp (q q' : Qp K) : Prop where
  N : q'.N = q.N
  nx : q'.nx = q.nx
  nu : q'.nu = q.nu
  H : ∀ k ≤ q.N, ∀ i < q.nu k + q.nx k, ∀ j < q.nu k + q.nx k, (q'.st k).H i j = (q.st k).H i j
  rest : ∀ k, { q'.st k with H := (q.st k).H } = q.st k

/-- an interval holds the data of a stage: variables in the other order, rows and bounds -/
structure Matches (inf : K) (nx nu : Nat) (last : Prop) (s : Stage K) (t : DStage K) : Prop where
  H : ∀ i < nx + nu, ∀ j < nx + nu, t.H i j = s.H (upos nx nu i) (upos nx nu j)
  g : ∀ j < nx + nu, t.g j = s.g (upos nx nu j)
  C : ¬ last → ∀ i < nx, ∀ j < nx + nu, t.C i j = s.BAbt (upos nx nu j) i
  c : ¬ last → ∀ i < nx, t.c i = s.b i
  bnd : ∀ i < s.nb, ∀ j < nx + nu, upos nx nu j = s.idxb i → t.zLow j = s.d i ∧ t.zUpp j = - s.d (s.nb + s.ng + i)
  free : ∀ j < nx + nu, (∀ i < s.nb, s.idxb i ≠ upos nx nu j) → t.zLow j = -inf ∧ t.zUpp j = inf
  D : ∀ i < s.ng, ∀ j < nx + nu, t.D i j = s.DCt (upos nx nu j) i
  dLow : ∀ i < s.ng, t.dLow i = s.d (s.nb + i)
  dUpp : ∀ i < s.ng, t.dUpp i = - s.d (2 * s.nb + s.ng + i)

/-- qpDUNES holds the QP -/
def Holds (inf : K) (q : Qp K) (st : Nat → DStage K) : Prop :=
  ∀ k ≤ q.N, Matches inf (q.nx 0) (q.nu k) (k = q.N) (q.st k) (st k)

/-- what the interface needs of the QP: accepted dimensions, no slacks, no one-sided constraints, at most one bound per variable,
symmetric Hessian, bounds below the number for infinity -/
structure Supported (inf : K) (q : Qp K) : Prop where
  wf : WF q
  ok : QpOk q
  ns : ∀ k ≤ q.N, (q.st k).ns = 0
  mask : ∀ k ≤ q.N, ∀ r, (q.st k).mask r = 1
  fin : ∀ k ≤ q.N, ∀ r < (q.st k).nb, -inf < (q.st k).d r ∧ - (q.st k).d ((q.st k).m + r) < inf

/-- the same point in the two orders -/
def Rel (q : Qp K) (ux z : Nat → Nat → K) : Prop := ∀ k ≤ q.N, ∀ j < q.nx 0 + q.nu k, z k j = ux k (upos (q.nx 0) (q.nu k) j)

/-- a stage without bounds, or with bounds on all variables in order, or without inputs -/
def Plain (nx nu : Nat) (s : Stage K) : Prop :=
  s.nb = 0 ∨ (s.nb = nu + nx ∧ ∀ i < s.nb, s.idxb i = i) ∨ (nu = 0 ∧ s.nb ≤ nx)

end Acados.Dunes
