/-!
# Iterates as objects and in files: what a user expects
-/
namespace Acados.IterFile

/-- the fields of an iterate -/
inductive Fld | x | u | z | sl | su | pi | lam
  deriving DecidableEq, Repr

/-- fields that exist at the terminal stage -/
def Fld.atEnd : Fld → Bool
  | .x | .sl | .su | .lam => true
  | .u | .z | .pi => false

/-- an iterate: for each field the vectors of the stages -/
abbrev Iterate (K : Type) := Fld → List (List K)

/-- number of vectors of a field for horizon `N` -/
def Fld.count (N : Nat) (f : Fld) : Nat := if f.atEnd then N + 1 else N

/-- an iterate for horizon `N` -/
def Iterate.For {K : Type} (it : Iterate K) (N : Nat) : Prop := ∀ f, (it f).length = f.count N

/-- the terminal stage has at least one number -/
def Iterate.TerminalData {K : Type} (it : Iterate K) (N : Nat) : Prop :=
  ∃ f : Fld, f.atEnd = true ∧ ∃ v, (it f)[N]? = some v ∧ v ≠ []

/-- a solver, as far as iterates are concerned: horizon, lengths of the vectors, mask of the inequality multipliers and values -/
structure Solver (K : Type) where
  N : Nat
  dim : Nat → Fld → Nat
  mask : Nat → List K
  val : Nat → Fld → List K

/-- the iterate the solver holds at a stage -/
def Solver.Holds {K : Type} (s : Solver K) (it : Iterate K) : Prop :=
  it.For s.N ∧ ∀ f : Fld, ∀ i < f.count s.N, (it f)[i]? = some (s.val i f)

/-- vectors have the lengths of the dimensions -/
def Solver.Fits {K : Type} (s : Solver K) : Prop := ∀ f : Fld, ∀ i < f.count s.N, (s.val i f).length = s.dim i f

/-- two solvers for problems of the same size -/
def SameSize {K : Type} (s t : Solver K) : Prop := s.N = t.N ∧ ∀ f : Fld, ∀ i < f.count s.N, s.dim i f = t.dim i f

/-- multipliers of masked constraints are zero -/
def Masked {K : Type} [Mul K] (mask v : List K) : List K := List.zipWith (· * ·) mask v

end Acados.IterFile
