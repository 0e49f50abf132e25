import Verif.Spec.QpDump
import Mathlib.Data.Nat.Cast.Defs

/-!
# Arrays of a QP description

What the arrays of a description must be for the solver to receive the QP that is described.
Documented shapes are those of `Dims.rows`, `Dims.cols` (`Spec/QpDump.lean`).
-/

namespace Acados.QpDesc

/-- An array of `r` by `c` entries in place of a documented array of `rows` by `cols`: the shapes
agree unless nothing is documented to be there. -/
def Shape (r c rows cols : ℕ) : Prop := rows * cols ≠ 0 → r = rows ∧ c = cols

/-- The solver reads entry `(i, j)` of a documented array of `rows` by `cols` at position
`j * rows + i` of the memory it is given (column-major order). It must find entry `(i, j)` of
the array of the user there, for all entries. -/
def Received {K : Type} (e : ℕ → ℕ → K) (rows cols : ℕ) (memory : ℕ → Option K) : Prop :=
  ∀ i < rows, ∀ j < cols, memory (j * rows + i) = some (e i j)

/-- Slacks given by constraint, `rev p` being the slack of constraint `p < m`, can be given as the
constraint of each of the slacks: every slack belongs to exactly one constraint. -/
def Expressible {K : Type} [NatCast K] (ns m : ℕ) (rev : ℕ → K) : Prop :=
  ∃ idxs : ℕ → ℕ, ∀ i < ns, idxs i < m ∧ ∀ p < m, (rev p = (i : K) ↔ p = idxs i)

/-- Every slack belongs to some constraint. -/
def AllUsed {K : Type} [NatCast K] (ns m : ℕ) (rev : ℕ → K) : Prop := ∀ i < ns, ∃ p < m, rev p = (i : K)

open QpDump (F) in
/-- Fields whose shape is checked at stage `k` of `N` or defines a dimension. -/
def Checked (N k : ℕ) : F → Prop
  | .A | .B | .Q | .R | .ubx | .ubu | .ug | .lus | .idxs => False
  | .b => k + 1 < N
  | .D => k < N
  | _ => True

/-- Values of the option `qp_solver` (acados_ocp_options.py:2470-2473). -/
inductive Solver
  | partHpipm | fullQpoases | fullHpipm | partQpdunes | partOsqp | partClarabel | fullDaqp
  deriving DecidableEq

/-- Solvers that use masks. -/
def UsesMasks : Solver → Prop
  | .partHpipm | .fullHpipm | .fullDaqp => True
  | _ => False

/-- Solvers that accept several constraints for a slack. -/
def UsesIdxsRev : Solver → Prop
  | .partHpipm | .fullHpipm => True
  | _ => False

end Acados.QpDesc
