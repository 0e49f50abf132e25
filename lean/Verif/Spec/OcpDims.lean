import Mathlib.Algebra.Order.Field.Basic

/-!
# A problem description: constraints, soft constraints and penalties

The fields of `AcadosOcpConstraints` and `AcadosOcpCost` that determine the dimensions of the constraints, and
what it means that they are well-formed.  A vector is a list, an array that is not set is the empty list, a
matrix is given by its numbers of rows and columns, an expression by its length (0: not given).
-/

namespace Acados.OcpDims

/-- bounds on selected components: `idxb*`, `lb*`, `ub*` -/
structure Box (K : Type) where
  idx : List Int
  l : List K
  u : List K
  deriving DecidableEq

/-- bounds on all rows of a vector: `lg`, `ug` and so on -/
structure Rows (K : Type) where
  l : List K
  u : List K
  deriving DecidableEq

/-- selected constraints that are soft: `idxs*`, `ls*`, `us*` -/
structure Soft (K : Type) where
  idx : List Int
  l : List K
  u : List K
  deriving DecidableEq

/-- the formulation by `idxs_rev`, `ls`, `us` -/
structure Rev (K : Type) where
  idx : List Int
  l : List K
  u : List K
  deriving DecidableEq

/-- penalties `zl`, `zu`, `Zl`, `Zu` -/
structure Pen (K : Type) where
  zl : List K
  zu : List K
  Zl : List K
  Zu : List K
  deriving DecidableEq

/-- penalties `zl_0`, `zu_0`, `Zl_0`, `Zu_0`; `none`: not set -/
structure Pen0 (K : Type) where
  zl : Option (List K)
  zu : Option (List K)
  Zl : Option (List K)
  Zu : Option (List K)
  deriving DecidableEq

/-- size of a matrix -/
structure Shape where
  rows : Nat
  cols : Nat
  deriving DecidableEq

/-- initial stage: `*_0` -/
structure Init (K : Type) where
  bx : Box K
  idxbxe : List Int
  hasX0 : Bool
  h : Rows K
  nh : Nat
  phi : Rows K
  nphi : Nat
  nr : Nat
  sh : Soft K
  sphi : Soft K
  rev : Rev K
  pen : Pen0 K
  deriving DecidableEq

/-- intermediate stages -/
structure Path (K : Type) where
  bx : Box K
  bu : Box K
  g : Rows K
  C : Shape
  D : Shape
  h : Rows K
  nh : Nat
  phi : Rows K
  nphi : Nat
  nr : Nat
  sbx : Soft K
  sbu : Soft K
  sg : Soft K
  sh : Soft K
  sphi : Soft K
  rev : Rev K
  pen : Pen K
  deriving DecidableEq

/-- terminal stage: `*_e` -/
structure Term (K : Type) where
  bx : Box K
  g : Rows K
  C : Shape
  h : Rows K
  nh : Nat
  phi : Rows K
  nphi : Nat
  nr : Nat
  sbx : Soft K
  sg : Soft K
  sh : Soft K
  sphi : Soft K
  rev : Rev K
  pen : Pen K
  deriving DecidableEq

/-- `qp_solver`, acados_ocp_options.py:243-246 -/
inductive QpSolver where
  | partialHpipm | fullQpoases | fullHpipm | partialQpdunes | partialOsqp | partialClarabel | fullDaqp
  deriving DecidableEq

/-- a description; `feasQp`: `nlp_solver_type` is `SQP_WITH_FEASIBLE_QP` -/
structure Desc (K : Type) where
  N : Nat
  nx : Nat
  nu : Nat
  init : Init K
  path : Path K
  term : Term K
  qp : QpSolver
  feasQp : Bool
  deriving DecidableEq

section
variable {K : Type}

/-- every index names one of `n` entries -/
def InRange (idx : List Int) (n : Nat) : Prop := ∀ i ∈ idx, 0 ≤ i ∧ i < n

/-- every index is below `n`; all that is checked -/
def Below (idx : List Int) (n : Nat) : Prop := ∀ i ∈ idx, i < n

/-- one lower and one upper bound for each index -/
def Box.Sized (b : Box K) : Prop := b.l.length = b.idx.length ∧ b.u.length = b.idx.length

/-- one lower and one upper bound for each of `n` rows -/
def Rows.Sized (r : Rows K) (n : Nat) : Prop := r.l.length = n ∧ r.u.length = n

/-- for each soft constraint one bound of its slacks, or none given -/
def Soft.Sized (s : Soft K) : Prop :=
  (s.l = [] ∨ s.l.length = s.idx.length) ∧ (s.u = [] ∨ s.u.length = s.idx.length)

/-- the same, by number of slacks -/
def Rev.Sized (s : Rev K) (ns : Nat) : Prop := (s.l = [] ∨ s.l.length = ns) ∧ (s.u = [] ∨ s.u.length = ns)

/-- a penalty of each kind for each of `ns` slacks -/
def Pen.Sized (p : Pen K) (ns : Nat) : Prop :=
  p.zl.length = ns ∧ p.zu.length = ns ∧ p.Zl.length = ns ∧ p.Zu.length = ns

/-- `ns` slacks, numbered from 0, each in at least one of `n` constraints; -1: not soft -/
def Rev.Uses (s : Rev K) (n ns : Nat) : Prop :=
  s.idx.length = n ∧ (∀ i ∈ s.idx, i = -1 ∨ (0 ≤ i ∧ i < ns)) ∧ ∀ j : Nat, j < ns → (j : Int) ∈ s.idx

/-- soft constraints chosen among `n`, each at most once -/
def Soft.WellFormed (s : Soft K) (n : Nat) : Prop := InRange s.idx n ∧ s.idx.Nodup ∧ s.Sized

/-- bounds on components chosen among `n`, each at most once -/
def Box.WellFormed (b : Box K) (n : Nat) : Prop := InRange b.idx n ∧ b.idx.Nodup ∧ b.Sized

/-- the constraints of the intermediate stages, as documented -/
def Path.WellFormed (p : Path K) (nx nu : Nat) : Prop :=
  p.bx.WellFormed nx ∧ p.bu.WellFormed nu ∧
  (p.g.Sized p.g.l.length ∧ p.C.rows = p.g.l.length ∧ p.D.rows = p.g.l.length ∧
    (0 < p.g.l.length → p.C.cols = nx ∧ p.D.cols = nu)) ∧
  p.h.Sized p.nh ∧ p.phi.Sized p.nphi ∧ (0 < p.nphi → 0 < p.nr)

/-- the constraints of the initial stage, as documented; the state bounds that are equalities are chosen among
the state bounds -/
def Init.WellFormed (p : Init K) (nx : Nat) : Prop :=
  p.bx.WellFormed nx ∧ (InRange p.idxbxe p.bx.idx.length ∧ p.idxbxe.Nodup) ∧
  (p.hasX0 = true → p.bx.idx.length = nx ∧ p.idxbxe = (List.range nx).map (fun i : Nat => (i : Int))) ∧
  p.h.Sized p.nh ∧ p.phi.Sized p.nphi ∧ (0 < p.nphi → 0 < p.nr)

/-- the constraints of the terminal stage, as documented -/
def Term.WellFormed (p : Term K) (nx : Nat) : Prop :=
  p.bx.WellFormed nx ∧
  (p.g.Sized p.g.l.length ∧ p.C.rows = p.g.l.length ∧ (0 < p.g.l.length → p.C.cols = nx)) ∧
  p.h.Sized p.nh ∧ p.phi.Sized p.nphi ∧ (0 < p.nphi → 0 < p.nr)

/-- soft constraints by `idxs*`: all chosen among the constraints of their kind; none by `idxs_rev` -/
def Path.SoftWellFormed (p : Path K) : Prop :=
  p.rev.idx = [] ∧ p.sbx.WellFormed p.bx.idx.length ∧ p.sbu.WellFormed p.bu.idx.length ∧
  p.sg.WellFormed p.g.l.length ∧ p.sh.WellFormed p.nh ∧ p.sphi.WellFormed p.nphi ∧
  p.pen.Sized (p.sbx.idx.length + p.sbu.idx.length + p.sh.idx.length + p.sg.idx.length + p.sphi.idx.length)

@[inherit_doc Path.SoftWellFormed]
def Term.SoftWellFormed (p : Term K) : Prop :=
  p.rev.idx = [] ∧ p.sbx.WellFormed p.bx.idx.length ∧
  p.sg.WellFormed p.g.l.length ∧ p.sh.WellFormed p.nh ∧ p.sphi.WellFormed p.nphi ∧
  p.pen.Sized (p.sbx.idx.length + p.sh.idx.length + p.sg.idx.length + p.sphi.idx.length)

/-- soft constraints of the initial stage: its own nonlinear ones, and the control bounds and general linear
constraints of the intermediate stages; penalties are given -/
def Init.SoftWellFormed (p : Init K) (q : Path K) : Prop :=
  p.rev.idx = [] ∧ p.sh.WellFormed p.nh ∧ p.sphi.WellFormed p.nphi ∧
  ∃ z : Pen K, p.pen = ⟨some z.zl, some z.zu, some z.Zl, some z.Zu⟩ ∧
    z.Sized (q.sbu.idx.length + q.sg.idx.length + p.sphi.idx.length + p.sh.idx.length)

end

section
variable {K : Type} [Field K] [LinearOrder K]

/-- all bounds are finite, in the sense of `ACADOS_INFTY`, utils.py:60 -/
def Finite (l : List K) : Prop := ∀ v ∈ l, -10 ^ 10 < v ∧ v < 10 ^ 10

/-- no constraint of the description is one-sided -/
def Desc.TwoSided (d : Desc K) : Prop :=
  (Finite d.init.bx.l ∧ Finite d.init.bx.u) ∧ (Finite d.init.h.l ∧ Finite d.init.h.u) ∧
  (Finite d.init.phi.l ∧ Finite d.init.phi.u) ∧
  (Finite d.path.bx.l ∧ Finite d.path.bx.u) ∧ (Finite d.path.bu.l ∧ Finite d.path.bu.u) ∧
  (Finite d.path.g.l ∧ Finite d.path.g.u) ∧ (Finite d.path.h.l ∧ Finite d.path.h.u) ∧
  (Finite d.path.phi.l ∧ Finite d.path.phi.u) ∧
  (Finite d.term.bx.l ∧ Finite d.term.bx.u) ∧ (Finite d.term.g.l ∧ Finite d.term.g.u) ∧
  (Finite d.term.h.l ∧ Finite d.term.h.u) ∧ (Finite d.term.phi.l ∧ Finite d.term.phi.u)

end

end Acados.OcpDims
