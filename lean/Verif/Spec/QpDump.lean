import Mathlib.Algebra.Order.Field.Basic
/-!
# Fields of an optimal control QP and their shapes

As documented in `acados_ocp_qp.py` lines 24-46.
-/
namespace Acados.QpDump

/-- fields of a QP -/
inductive F
  | A | B | b | Q | R | S | q | r | zl | zu | Zl | Zu | C | D | lg | ug | lbx | ubx | lbu | ubu | lls | lus
  | lgM | ugM | lbxM | ubxM | lbuM | ubuM | llsM | lusM | idxs | idxb | idxsRev | idxe
  deriving DecidableEq

/-- dimensions: horizon and for each stage the numbers of states, controls, bounds, linear constraints, slacks, equalities -/
structure Dims where
  N : Nat
  nx : Nat → Nat
  nu : Nat → Nat
  nbx : Nat → Nat
  nbu : Nat → Nat
  ng : Nat → Nat
  ns : Nat → Nat
  ne : Nat → Nat

/-- fields of the dynamics, not defined at the last stage -/
def F.isDyn : F → Bool
  | .A | .B | .b => true
  | _ => false

/-- stages at which a field is defined -/
def Dims.has (d : Dims) (f : F) (k : Nat) : Prop := k ≤ d.N ∧ (f.isDyn = true → k < d.N)

/-- matrices, as opposed to vectors -/
def F.isMat : F → Bool
  | .A | .B | .Q | .R | .S | .C | .D => true
  | _ => false

/-- integer fields -/
def F.isInt : F → Bool
  | .idxs | .idxb | .idxsRev | .idxe => true
  | _ => false

/-- number of entries of a vector, rows of a matrix -/
def Dims.rows (d : Dims) (f : F) (k : Nat) : Nat :=
  match f with
  | .A | .B | .b => d.nx (k + 1)
  | .Q | .q => d.nx k
  | .R | .S | .r => d.nu k
  | .zl | .zu | .Zl | .Zu | .lls | .lus | .llsM | .lusM | .idxs => d.ns k
  | .C | .D | .lg | .ug | .lgM | .ugM => d.ng k
  | .lbx | .ubx | .lbxM | .ubxM => d.nbx k
  | .lbu | .ubu | .lbuM | .ubuM => d.nbu k
  | .idxb => d.nbu k + d.nbx k
  | .idxsRev => d.nbu k + d.nbx k + d.ng k
  | .idxe => d.ne k

/-- columns of a matrix -/
def Dims.cols (d : Dims) (f : F) (k : Nat) : Nat :=
  match f with
  | .A | .Q | .S | .C => d.nx k
  | .B | .R | .D => d.nu k
  | _ => 1

/-- data of a QP: field, stage, row, column -/
abbrev Data (K : Type) := F → Nat → Nat → Nat → K

/-- `idxe` holds indices of bounds on states -/
def EqOnX {K : Type} [Field K] [LinearOrder K] (d : Dims) (v : Data K) : Prop :=
  ∀ k ≤ d.N, d.ne k ≤ d.nbu k + d.nbx k ∧ ∀ i < d.ne k, (d.nbu k : K) ≤ v .idxe k i 0 ∧ v .idxe k i 0 < ((d.nbu k + d.nbx k : Nat) : K)

end Acados.QpDump
