import Verif.Model.Daqp
import Verif.Spec.DenseQp
/-!
# What is assumed of DAQP and BLASFEO, and what is claimed of the result
-/
namespace Acados.Daqp
open Finset
open Acados.DenseQp (DQp row coef sl su lo up slb slackOf)
variable {K : Type*} [Field K] [LinearOrder K]

/-- the triangular solves belong to a Cholesky factor `L` of `H` -/
def CholFor (n : Nat) (H : Nat → Nat → K) (c : Chol K) : Prop :=
  ∃ L : Nat → Nat → K,
    (∀ i < n, ∀ j < n, ∑ k ∈ range n, L i k * L j k = H i j)
    ∧ (∀ b, ∀ i < n, ∑ k ∈ range n, L i k * c.solveN b k = b i)
    ∧ ∀ b, ∀ i < n, ∑ k ∈ range n, L k i * c.solveT b k = b i

/-- multiplier of constraint `i` in a working set -/
def mult (ws : List (Nat × K)) (i : Nat) : K := (ws.map fun p => if p.1 = i then p.2 else 0).sum

/-- `(M u)_i` -/
def Mu (l : Ldp K) (u : Nat → K) (i : Nat) : K := ∑ j ∈ range l.n, l.M j i * u j

/-- optimality conditions of the least-distance problem in DAQP's formulation: `u = -Mᵀ λ`, positive multipliers belong
to upper bounds.  A soft constraint may exceed its bound by `rho` times the amount by which its multiplier exceeds the
slack bound `d` (the bound is the one with the slack at its own bound).  Constraints that are not considered are not in
the working set, equalities are. -/
structure LdpSol (l : Ldp K) (u : Nat → K) (ws : List (Nat × K)) : Prop where
  nodup : (ws.map Prod.fst).Nodup
  lt : ∀ p ∈ ws, p.1 < l.m
  prim : ∀ j < l.n, u j = - (ws.map fun p => l.M j p.1 * p.2).sum
  ign : ∀ p ∈ ws, l.kind p.1 ≠ .ign
  hard : ∀ i < l.m, l.kind i = .hard → (Mu l u i ≤ l.dup i ∧ (0 < mult ws i → Mu l u i = l.dup i))
    ∧ (l.dlo i ≤ Mu l u i ∧ (mult ws i < 0 → Mu l u i = l.dlo i))
  soft : ∀ i < l.m, l.kind i = .soft →
    (Mu l u i - l.dup i ≤ l.rhou i * max 0 (mult ws i - l.dus i)
      ∧ (0 < mult ws i → Mu l u i - l.dup i = l.rhou i * max 0 (mult ws i - l.dus i)))
    ∧ (l.dlo i - Mu l u i ≤ l.rhol i * max 0 (-mult ws i - l.dls i)
      ∧ (mult ws i < 0 → l.dlo i - Mu l u i = l.rhol i * max 0 (-mult ws i - l.dls i)))
  eq : ∀ i < l.m, l.kind i = .eq → Mu l u i = l.dup i ∧ i ∈ ws.map Prod.fst

/-- optimality conditions of a dense QP with slacks (as `DenseQp.Kkt`, with multipliers `pi` of the equalities,
Lagrangian `... + pi' (A x - b)`); multipliers of masked constraints vanish; bounds of slacks
hold whether or not they are masked -/
structure KktE (q : DQp K) (v lam pi : Nat → K) : Prop where
  feas : DenseQp.Feasible q v
  nonneg : ∀ i, i < 2 * (q.nb + q.ng + q.ns) → 0 ≤ lam i
  stat : ∀ j, j < q.nv → ∑ k ∈ range q.nv, q.H j k * v k + q.gz j + ∑ e ∈ range q.ne, q.A e j * pi e
    = ∑ i ∈ range (q.nb + q.ng), (lam i - lam (q.nb + q.ng + i)) * coef q i j
  statL : ∀ i, i < q.nb + q.ng → DenseQp.Soft q i →
    q.Z (slackOf q i) * v (q.nv + slackOf q i) + q.gz (q.nv + slackOf q i)
      = lam i + lam (2 * (q.nb + q.ng) + slackOf q i)
  statU : ∀ i, i < q.nb + q.ng → DenseQp.Soft q i →
    q.Z (q.ns + slackOf q i) * v (q.nv + q.ns + slackOf q i) + q.gz (q.nv + q.ns + slackOf q i)
      = lam (q.nb + q.ng + i) + lam (2 * (q.nb + q.ng) + q.ns + slackOf q i)
  compL : ∀ i, i < q.nb + q.ng → lam i * (row q v i + sl q v i - lo q i) = 0
  compU : ∀ i, i < q.nb + q.ng → lam (q.nb + q.ng + i) * (up q i - row q v i + su q v i) = 0
  compS : ∀ j, j < 2 * q.ns → lam (2 * (q.nb + q.ng) + j) * (v (q.nv + j) - slb q j) = 0
  masked : ∀ i, i < 2 * (q.nb + q.ng) → q.mask i = 0 → lam i = 0
  bnd : ∀ j, j < 2 * q.ns → slb q j ≤ v (q.nv + j)

/-- the QP as DAQP solves it: symmetric Hessian from the lower triangle, quadratic slack penalties at least `1e-8` -/
def solved (e : Ext K) (q : DQp K) : DQp K := { q with H := DenseQp.fillUpper q.nv q.H, Z := zHess e q }

/-- the solution stays away from the number that stands for an infinite bound -/
def Inside (e : Ext K) (q : DQp K) (x : Nat → K) : Prop :=
  ∀ i < q.nb + q.ng, -e.big < row q x i ∧ row q x i < e.big
    ∧ (DenseQp.Soft q i → -e.big - slb q (slackOf q i) < row q x i ∧ row q x i < e.big + slb q (q.ns + slackOf q i))

/-- slack penalties whose derivative at the slack bound is not negative -/
def Pen (e : Ext K) (q : DQp K) : Prop := ∀ t < 2 * q.ns, 0 ≤ q.gz (q.nv + t) + zHess e q t * slb q t

/-- no constraint row is short in the metric of the Hessian -/
def LongRows (e : Ext K) (q : DQp K) : Prop :=
  ∀ i < mOf q, e.tol ≤ ∑ j ∈ range q.nv, (e.potrf (DenseQp.fillUpper q.nv q.H)).solveN (colOf q i) j
    * (e.potrf (DenseQp.fillUpper q.nv q.H)).solveN (colOf q i) j

/-- the fields `warm_start == 2` promises not to change -/
structure SameMat (q q' : DQp K) : Prop where
  nv : q'.nv = q.nv
  ne : q'.ne = q.ne
  nb : q'.nb = q.nb
  ng : q'.ng = q.ng
  ns : q'.ns = q.ns
  H : q'.H = q.H
  A : q'.A = q.A
  Ct : q'.Ct = q.Ct
  idxb : q'.idxb = q.idxb
  rev : q'.idxsRev = q.idxsRev

/-- a call: hot start flag, the QP, what the slack arrays of DAQP contained -/
structure Call (K : Type*) where
  hot : Bool
  q : DQp K
  old : Soft K

/-- memory after a sequence of calls; `none` if a call that was not hot-started failed -/
def history (e : Ext K) (m : Mem K) (h : List (Call K)) : Option (Mem K) :=
  h.foldlM (fun m c =>
    let r := update e c.hot c.q c.old m
    if r.2.isSome || c.hot then some r.1 else none) m

end Acados.Daqp
