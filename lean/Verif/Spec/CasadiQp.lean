import Mathlib.Algebra.BigOperators.Group.Finset.Basic
import Mathlib.Algebra.Order.Field.Basic
/-!
# Quadratic programs with the structure of optimal control: feasible points and cost

As documented in `acados_ocp_qp.py` lines 24-46: the variables of a stage are `[u; x]`, bounds are on entries `idxb` of it, bounds on
`u` first, then come the linear constraints; `rev` is the slack of a constraint; masks deactivate one side of a constraint.
-/
namespace Acados.CasadiQp
open Finset
variable {K : Type} [Field K] [LinearOrder K]

/-- data of a stage -/
structure Stage (K : Type) where
  nx : Nat
  nu : Nat
  nbu : Nat
  nbx : Nat
  ng : Nat
  ns : Nat
  A : Nat → Nat → K
  B : Nat → Nat → K
  b : Nat → K
  Q : Nat → Nat → K
  R : Nat → Nat → K
  S : Nat → Nat → K
  q : Nat → K
  r : Nat → K
  Zl : Nat → K
  Zu : Nat → K
  zl : Nat → K
  zu : Nat → K
  idxb : Nat → Nat
  lbu : Nat → K
  ubu : Nat → K
  lbx : Nat → K
  ubx : Nat → K
  C : Nat → Nat → K
  D : Nat → Nat → K
  lg : Nat → K
  ug : Nat → K
  rev : Nat → Option Nat
  lls : Nat → K
  lus : Nat → K
  lbuM : Nat → Bool
  ubuM : Nat → Bool
  lbxM : Nat → Bool
  ubxM : Nat → Bool
  lgM : Nat → Bool
  ugM : Nat → Bool
  llsM : Nat → Bool
  lusM : Nat → Bool

/-- number of bounds -/
def Stage.nb (s : Stage K) : Nat := s.nbu + s.nbx

/-- a QP with stages `0..N` -/
structure Qp (K : Type) where
  N : Nat
  st : Nat → Stage K

/-- kinds of variables -/
inductive Fld | x | u | sl | su deriving DecidableEq

/-- a point: value of entry `j` of a kind of variable at a stage -/
abbrev Pt (K : Type) := Fld → Nat → Nat → K

/-- `none` is no bound -/
def leO (l : Option K) (v : K) : Prop := ∀ a, l = some a → a ≤ v
def geO (l : Option K) (v : K) : Prop := ∀ a, l = some a → v ≤ a

/-- a bound that is active if the mask says so -/
def act (m : Bool) (v : K) : Option K := if m then some v else none

variable (s : Stage K) (k : Nat) (p : Pt K)

/-- entry `i` of `[u; x]` -/
def Stage.ux (i : Nat) : K := if i < s.nu then p .u k i else p .x k (i - s.nu)

/-- value of constraint `j` -/
def Stage.val (j : Nat) : K :=
  if j < s.nb then s.ux k p (s.idxb j)
  else (∑ i ∈ range s.nx, s.C (j - s.nb) i * p .x k i) + ∑ i ∈ range s.nu, s.D (j - s.nb) i * p .u k i

/-- bounds of constraint `j` -/
def Stage.lower (j : Nat) : Option K :=
  if j < s.nbu then act (s.lbuM j) (s.lbu j) else if j < s.nb then act (s.lbxM (j - s.nbu)) (s.lbx (j - s.nbu))
  else act (s.lgM (j - s.nb)) (s.lg (j - s.nb))
def Stage.upper (j : Nat) : Option K :=
  if j < s.nbu then act (s.ubuM j) (s.ubu j) else if j < s.nb then act (s.ubxM (j - s.nbu)) (s.ubx (j - s.nbu))
  else act (s.ugM (j - s.nb)) (s.ug (j - s.nb))

/-- slacks of constraint `j` -/
def Stage.slOf (j : Nat) : K := (s.rev j).elim 0 (p .sl k)
def Stage.suOf (j : Nat) : K := (s.rev j).elim 0 (p .su k)

/-- constraints of a stage -/
def Stage.Feasible : Prop :=
  (∀ j < s.nb + s.ng, leO (s.lower j) (s.val k p j + s.slOf k p j) ∧ geO (s.upper j) (s.val k p j - s.suOf k p j))
  ∧ ∀ j < s.ns, leO (act (s.llsM j) (s.lls j)) (p .sl k j) ∧ leO (act (s.lusM j) (s.lus j)) (p .su k j)

/-- feasible points of a QP -/
def Qp.Feasible (qp : Qp K) (p : Pt K) : Prop :=
  (∀ k < qp.N, ∀ j < (qp.st (k + 1)).nx, p .x (k + 1) j
    = (∑ i ∈ range (qp.st k).nx, (qp.st k).A j i * p .x k i) + (∑ i ∈ range (qp.st k).nu, (qp.st k).B j i * p .u k i) + (qp.st k).b j)
  ∧ ∀ k ≤ qp.N, (qp.st k).Feasible k p

/-- Hessian of a stage for `[u; x]`, `[R, S; Sᵀ, Q]` -/
def Stage.H (i j : Nat) : K :=
  if i < s.nu then if j < s.nu then s.R i j else s.S i (j - s.nu)
  else if j < s.nu then s.S j (i - s.nu) else s.Q (i - s.nu) (j - s.nu)

/-- gradient of a stage, `[r; q]` -/
def Stage.grad (i : Nat) : K := if i < s.nu then s.r i else s.q (i - s.nu)

/-- cost of a stage -/
def Stage.cost : K :=
  1 / 2 * (∑ i ∈ range (s.nu + s.nx), ∑ j ∈ range (s.nu + s.nx), s.ux k p i * s.H i j * s.ux k p j)
  + (∑ i ∈ range (s.nu + s.nx), s.grad i * s.ux k p i)
  + (∑ j ∈ range s.ns, (1 / 2 * s.Zl j * p .sl k j ^ 2 + s.zl j * p .sl k j))
  + ∑ j ∈ range s.ns, (1 / 2 * s.Zu j * p .su k j ^ 2 + s.zu j * p .su k j)

/-- cost of a QP -/
def Qp.cost (qp : Qp K) (p : Pt K) : K := ∑ k ∈ range (qp.N + 1), (qp.st k).cost k p

end Acados.CasadiQp
