import Mathlib.Algebra.BigOperators.Intervals
import Mathlib.Algebra.Field.Basic
/-!
# The cost of a stage, as documented

Expressions over the symbols of a model with their values, and the value of the cost of one stage for each cost type
(`docs/problem_formulation`, `acados_ocp_cost.py`, and the cost modules of the C code):

* LINEAR_LS: `½ ‖Vx x + Vu u + Vz z − yref‖²_W`
* NONLINEAR_LS: `½ ‖y(x,u,z,p) − yref‖²_W`
* CONVEX_OVER_NONLINEAR: `ψ(y(x,u,z,p) − yref, p)`
* EXTERNAL (and AUTO before the type is detected): the given expression
-/
namespace Acados.CostForm
variable {K F : Type}

/-- symbols of a model; `r` are the arguments of the outer function `ψ` -/
inductive Sym | x (i : Nat) | u (i : Nat) | z (i : Nat) | p (i : Nat) | r (i : Nat)
  deriving DecidableEq

/-- function symbols with their meaning and the symbols for their partial derivatives -/
structure Lang (K F : Type) where
  I : F → K → K → K
  d1 : F → F
  d2 : F → F

/-- scalar expressions -/
inductive Ex (K F : Type)
  | const (c : K)
  | sym (s : Sym)
  | add (a b : Ex K F)
  | mul (a b : Ex K F)
  | fn (f : F) (a b : Ex K F)

/-- values of all symbols -/
abbrev Env (K : Type) := Sym → K

def Ex.eval [Add K] [Mul K] (L : Lang K F) (v : Env K) : Ex K F → K
  | .const c => c
  | .sym s => v s
  | .add a b => a.eval L v + b.eval L v
  | .mul a b => a.eval L v * b.eval L v
  | .fn f a b => L.I f (a.eval L v) (b.eval L v)

/-- symbols that occur -/
def Ex.occurs (s : Sym) : Ex K F → Prop
  | .const _ => False
  | .sym t => t = s
  | .add a b => a.occurs s ∨ b.occurs s
  | .mul a b => a.occurs s ∨ b.occurs s
  | .fn _ a b => a.occurs s ∨ b.occurs s

/-- the values with the arguments of `ψ` set to `r` -/
def Env.withR (v : Env K) (r : Nat → K) : Env K
  | .r i => r i
  | s => v s

inductive Kind | linearLs | nonlinearLs | conl | external | auto
  deriving DecidableEq

structure Mat (K : Type) where
  rows : Nat
  cols : Nat
  e : Nat → Nat → K

/-- entries outside of the matrix do not contribute -/
def Mat.at {K : Type} [Zero K] (M : Mat K) (i j : Nat) : K := if i < M.rows ∧ j < M.cols then M.e i j else 0

structure Vec (K : Type) where
  len : Nat
  e : Nat → K

/-- the cost of one stage as stored in the description; weights and references may be symbolic -/
structure SC (K F : Type) where
  kind : Option Kind
  Vx : Mat K
  Vu : Mat K
  Vz : Mat K
  W : Mat (Ex K F)
  yref : Vec (Ex K F)
  y : Vec (Ex K F)
  /-- number of arguments of `ψ` -/
  nr : Nat
  psi : Option (Ex K F)
  ext : Option (Ex K F)
  /-- custom Hessian of an external cost -/
  hess : Option (Mat (Ex K F))
  /-- custom Hessian of `ψ` -/
  outer : Option (Mat (Ex K F))

open Finset

/-- `½ rᵀ W r` -/
def wls [Field K] (n : Nat) (W : Nat → Nat → K) (r : Nat → K) : K :=
  (1 / 2) * ∑ i ∈ range n, ∑ j ∈ range n, r i * W i j * r j

/-- the value of the cost of a stage at given values of the symbols; `none` if the cost is not given -/
def value [Field K] (L : Lang K F) (nx nu nz : Nat) (c : SC K F) (v : Env K) : Option K :=
  match c.kind with
  | none => none
  | some .linearLs => some (wls c.W.rows (fun i j => (c.W.e i j).eval L v) (fun i =>
      (∑ j ∈ range nx, c.Vx.at i j * v (.x j)) + (∑ j ∈ range nu, c.Vu.at i j * v (.u j))
        + (∑ j ∈ range nz, c.Vz.at i j * v (.z j)) - (c.yref.e i).eval L v))
  | some .nonlinearLs => some (wls c.W.rows (fun i j => (c.W.e i j).eval L v)
      (fun i => (c.y.e i).eval L v - (c.yref.e i).eval L v))
  | some .conl => c.psi.map fun ψ => ψ.eval L (v.withR fun i => (c.y.e i).eval L v - (c.yref.e i).eval L v)
  | some .external => c.ext.map fun e => e.eval L v
  | some .auto => c.ext.map fun e => e.eval L v

/-- which of the three cost terms -/
inductive Stage | initial | path | terminal
  deriving DecidableEq

/-- the description: three cost terms and the parameters with their values -/
structure Ocp (K F : Type) where
  nx : Nat
  nu : Nat
  nz : Nat
  c0 : SC K F
  cp : SC K F
  ce : SC K F
  np : Nat
  pVals : List K
  npGlobal : Nat
  pGlobalVals : List K

def Ocp.cost (o : Ocp K F) : Stage → SC K F
  | .initial => o.c0
  | .path => o.cp
  | .terminal => o.ce

/-- the cost of a stage; the terminal cost depends on neither `u` nor `z` -/
def costValue [Field K] (L : Lang K F) (o : Ocp K F) (st : Stage) (c : SC K F) (v : Env K) : Option K :=
  if st = .terminal then value L o.nx 0 0 c v else value L o.nx o.nu o.nz c v

/-- the same cost with another reference and another weight, where they are given -/
def SC.withRef (c : SC K F) (yref : Option (Vec (Ex K F))) (W : Option (Mat (Ex K F))) : SC K F :=
  { c with yref := yref.getD c.yref, W := W.getD c.W }

inductive HessKind | exact | gaussNewton
  deriving DecidableEq

/-- a matrix is absent or has the given shape -/
def Mat.Fits {α : Type} (M : Mat α) (n m : Nat) : Prop := (M.rows = 0 ∨ M.cols = 0) ∨ (M.rows = n ∧ M.cols = m)

/-- what `translate_cost_to_external_cost` requires of one cost term: Gauss-Newton Hessians are for least squares costs (or an
initial cost that is not given), given references and weights have the shape of those in the description, and the parts of the
cost match in shape -/
def Accepts (nx nu nz : Nat) (st : Stage) (h : HessKind) (yref? : Option (Vec (Ex K F))) (W? : Option (Mat (Ex K F)))
    (c : SC K F) : Prop :=
  (h = .gaussNewton → c.kind = some .linearLs ∨ c.kind = some .nonlinearLs ∨ (st = .initial ∧ c.kind = none))
  ∧ (∀ y, yref? = some y → y.len = c.yref.len)
  ∧ (∀ W, W? = some W → W.rows = c.W.rows ∧ W.cols = c.W.cols)
  ∧ (c.kind = some .linearLs → c.Vx.Fits c.yref.len nx ∧ (st ≠ .terminal → c.Vu.Fits c.yref.len nu ∧ c.Vz.Fits c.yref.len nz)
      ∧ c.W.rows = c.yref.len ∧ c.W.cols = c.yref.len)
  ∧ (c.kind = some .nonlinearLs → c.y.len = c.yref.len ∧ c.W.rows = c.yref.len ∧ c.W.cols = c.yref.len)
  ∧ (c.kind = some .conl → c.psi ≠ none ∧ c.y.len = c.yref.len ∧ c.nr = c.yref.len)

/-- additional parameters: number of symbols and values (`none` if not given) -/
abbrev AddP (K : Type) := Option (Nat × Option (List K))

/-- parameters are complete: as many values as symbols -/
def ParamsGiven (p : AddP K) : Prop := ∀ q, p = some q → ∃ vs, q.2 = some vs ∧ vs.length = q.1

end Acados.CostForm
