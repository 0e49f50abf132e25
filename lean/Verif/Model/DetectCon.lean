import Verif.Spec.DetectCon
/-!
# Constraint detection

`interfaces/acados_template/acados_template/mpc_utils.py` lines 459-663: `detect_constraint_structure`, `J_to_idx`.

A constraint is its function with what CasADi reports about it: `lin` (line 524-527: no dependence on `z`, `p`, `p_global` and
`is_linear` in `x`, `u`, which is also true of affine functions), `depU` (line 573) and the gradient at zero (lines 537-539).
Simplifications: there are at least two variables (for one, `squeeze` in line 542 gives an array without dimensions), the lists of
bounds have the length of the expression, and `J_to_idx` of the unit rows built in lines 545-557 is written as the index of the row.
-/
namespace Acados.DetectCon
variable {K : Type} [Field K] [LinearOrder K]
open Finset

structure Con (K : Type) where
  fn : Fn K
  lin : Bool
  depU : Bool
  J : Nat → K

/-- a constraint with its bounds -/
structure Item (K : Type) where
  con : Con K
  lb : K
  ub : K

/-- constraints of a stage: nonlinear ones, rows of `C` and `D` with `lg`, `ug`, bounds with their index -/
structure Cons (K : Type) where
  h : List (Item K)
  g : List ((Nat → K) × (Nat → K) × K × K)
  bx : List (Nat × K × K)
  bu : List (Nat × K × K)

/-- indices of nonzero entries of the gradient, line 540 -/
def nonzeros (n : Nat) (J : Nat → K) : List Nat := (List.range n).filter fun i => decide (J i ≠ 0)

/-- the loop body, lines 522-569 -/
def one (nx nu : Nat) (it : Item K) : Cons K :=
  if it.con.lin = false then ⟨[it], [], [], []⟩
  else match nonzeros (nx + nu) it.con.J with
    | [i] =>
      if i < nx then ⟨[], [], [(i, it.lb / it.con.J i, it.ub / it.con.J i)], []⟩
      else ⟨[], [], [], [(i - nx, it.lb / it.con.J i, it.ub / it.con.J i)]⟩
    | _ => ⟨[], [(it.con.J, fun j => it.con.J (nx + j), it.lb, it.ub)], [], []⟩

/-- the loop, lines 521-569 -/
def collect (nx nu : Nat) : List (Item K) → Cons K
  | [] => ⟨[], [], [], []⟩
  | it :: l =>
    let a := one nx nu it
    let b := collect nx nu l
    ⟨a.h ++ b.h, a.g ++ b.g, a.bx ++ b.bx, a.bu ++ b.bu⟩

/-- the constraints of a problem: for path stages, extra ones for the initial and terminal stage -/
structure Prob (K : Type) where
  path : Cons K
  h0 : List (Item K)
  bx0 : List (Nat × K × K)
  term : Cons K

/-- `constraints.X = ...` only if something was found -/
def repl {α : Type} (found old : List α) : List α := if found.isEmpty then old else found

/-- stage type `path`, lines 623-645 -/
def detectPath (nx nu : Nat) (p : Prob K) : Prob K :=
  let f := collect nx nu p.path.h
  { p with path := ⟨f.h, repl f.g p.path.g, repl f.bx p.path.bx, repl f.bu p.path.bu⟩ }

/-- stage type `initial`, lines 594-621: linear constraints and bounds on controls go to those of the path -/
def detectInitial (nx nu : Nat) (p : Prob K) : Prob K :=
  let f := collect nx nu p.h0
  { p with h0 := f.h, bx0 := repl f.bx p.bx0, path := ⟨p.path.h, repl f.g p.path.g, p.path.bx, repl f.bu p.path.bu⟩ }

/-- stage type `terminal`, lines 571-592; `none`: an exception -/
def detectTerminal (nx nu : Nat) (p : Prob K) : Option (Prob K) :=
  let f := collect nx nu p.term.h
  if p.term.h.any (·.con.depU) || !f.bu.isEmpty || f.g.any (fun r => (List.range nu).any fun j => decide (r.2.1 j ≠ 0)) then none
  else some { p with term := ⟨f.h, repl (f.g.map fun r => (r.1, fun _ => 0, r.2.2.1, r.2.2.2)) p.term.g, repl f.bx p.term.bx, p.term.bu⟩ }

/-- the points that satisfy nonlinear constraints, linear ones and bounds, as the solver evaluates them
(`ocp_nlp_constraints_bgh.c`, see C05) -/
def Feas (nx nu : Nat) (c : Cons K) (x u w : Nat → K) : Prop :=
  (∀ it ∈ c.h, Within it.lb it.ub (it.con.fn x u w))
  ∧ (∀ r ∈ c.g, Within r.2.2.1 r.2.2.2 ((∑ i ∈ range nx, r.1 i * x i) + ∑ i ∈ range nu, r.2.1 i * u i))
  ∧ (∀ b ∈ c.bx, Within b.2.1 b.2.2 (x b.1)) ∧ ∀ b ∈ c.bu, Within b.2.1 b.2.2 (u b.1)

/-- constraints of the initial stage: bounds on controls and linear constraints are those of the path
(`c_templates_tera/acados_solver.in.c`) -/
def Prob.initial (p : Prob K) : Cons K := ⟨p.h0, p.path.g, p.bx0, p.path.bu⟩

end Acados.DetectCon
