import Verif.Model.Wfqp
import Verif.Spec.OcpQp
/-!
# Specification for the relaxed QP of SQP_WITH_FEASIBLE_QP
-/
namespace Acados.Wfqp

/-- admissible user data: every soft index refers to a constraint of its own kind, none is given twice,
the slack dimensions add up -/
structure ValidSoft (d : CDims) (sbu sbx sg sh : Nat → Nat) : Prop where
  sum : d.ns = d.nsbu + d.nsbx + d.nsg + d.nsh
  bu : ∀ j < d.nsbu, sbu j < d.nbu
  bx : ∀ j < d.nsbx, sbx j < d.nbx
  g : ∀ j < d.nsg, sg j < d.ng
  h : ∀ j < d.nsh, sh j < d.nh
  ibu : ∀ j < d.nsbu, ∀ k < d.nsbu, sbu j = sbu k → j = k
  ibx : ∀ j < d.nsbx, ∀ k < d.nsbx, sbx j = sbx k → j = k
  ig : ∀ j < d.nsg, ∀ k < d.nsg, sg j = sg k → j = k
  ih : ∀ j < d.nsh, ∀ k < d.nsh, sh j = sh k → j = k

/-- constraint row `i` (order: control bounds, state bounds, general, nonlinear) was softened by the
user -/
def UserSoft (d : CDims) (sbu sbx sg sh : Nat → Nat) (i : Nat) : Prop :=
  (∃ j < d.nsbu, i = sbu j) ∨ (∃ j < d.nsbx, i = d.nbu + sbx j) ∨
  (∃ j < d.nsg, i = d.nbu + d.nbx + sg j) ∨ (∃ j < d.nsh, i = d.nbu + d.nbx + d.ng + sh j)

/-- rows that the relaxation must leave alone: control bounds, and state bounds of the initial stage -/
def NeverRelaxed (first : Bool) (d : CDims) (i : Nat) : Prop :=
  i < d.nbu ∨ (first = true ∧ i < d.nbu + d.nbx)

instance (first : Bool) (d : CDims) (i : Nat) : Decidable (NeverRelaxed first d i) := by
  unfold NeverRelaxed; infer_instance

open Acados.QpScal
variable {K : Type*} [Field K] [LinearOrder K]

/-- the nominal QP has the dimensions and soft constraints described by `p`: per stage
`nbu + nbx` bounds, `ng + nh` general rows, `ns` slacks, and `idxs` points from each softened row to its
slack -/
structure Describes (p : Soft) (q : Qp K) : Prop where
  valid : ∀ i, ValidSoft (p.cd i) (p.sbu i) (p.sbx i) (p.sg i) (p.sh i)
  nb : ∀ i, (q.st i).nb = (p.cd i).nbu + (p.cd i).nbx
  ng : ∀ i, (q.st i).ng = (p.cd i).ng + (p.cd i).nh
  ns : ∀ i, (q.st i).ns = (p.cd i).ns
  idxs : ∀ i, (q.st i).idxs = nomRev (p.cd i) (p.idxs i)

/-- row `r` of stage `i` was softened by the user -/
def Soft.user (p : Soft) (i r : Nat) : Prop := UserSoft (p.cd i) (p.sbu i) (p.sbx i) (p.sg i) (p.sh i) r

/-- a bound row: the value satisfies both sides that are switched on -/
def BoundOk (s : Stage K) (r : Nat) (v : K) : Prop :=
  (s.mask r ≠ 0 → s.d r ≤ v) ∧ (s.mask (s.m + r) ≠ 0 → v ≤ - s.d (s.m + r))

/-- the user's part of a point of the relaxed QP: states, controls and user slacks (the `k` added lower
and upper slacks are dropped) -/
def dropAdded (nux ns k : Nat) (ux : Nat → K) : Nat → K :=
  fun j => if j < nux + ns then ux j else ux (j + k)

/-- total violation of the rows of a stage (those that are switched on), slack bounds not counted -/
def violation (s : Stage K) (v : Nat → K) : K :=
  (∑ r ∈ Finset.range s.m, if s.mask r = 1 then max 0 (- s.gapL v r) else 0) +
  ∑ r ∈ Finset.range s.m, if s.mask (s.m + r) = 1 then max 0 (- s.gapU v r) else 0

end Acados.Wfqp
