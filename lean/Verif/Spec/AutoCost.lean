import Verif.Spec.CostForm
import Mathlib.Algebra.Order.Field.Basic
import Mathlib.Algebra.Order.Ring.Abs
/-!
# Cost type AUTO: the cost before and after its type is detected
-/
namespace Acados.AutoCost
open Finset Acados.CostForm
variable {K : Type} [Field K]

/-- `½ wᵀ H w + gᵀ w + c` -/
structure Quad (K : Type) where
  H : Nat → Nat → K
  g : Nat → K
  c : K

def Quad.at (q : Quad K) (n : Nat) (w : Nat → K) : K := wls n q.H w + (∑ a ∈ range n, q.g a * w a) + q.c

/-- states, inputs and algebraic variables as one vector -/
def stack (nx nu : Nat) (x u z : Nat → K) (a : Nat) : K :=
  if a < nx then x a else if a < nx + nu then u (a - nx) else z (a - nx - nu)

/-- the data of a LINEAR_LS cost -/
structure LS (K : Type) where
  ny : Nat
  Vx : Nat → Nat → K
  Vu : Nat → Nat → K
  Vz : Nat → Nat → K
  W : Nat → Nat → K
  yref : Nat → K

/-- `½ ‖Vx x + Vu u + Vz z − yref‖²_W` -/
def LS.value (l : LS K) (nx nu nz : Nat) (x u z : Nat → K) : K :=
  wls l.ny l.W fun i => (∑ j ∈ range nx, l.Vx i j * x j) + (∑ j ∈ range nu, l.Vu i j * u j) + (∑ j ∈ range nz, l.Vz i j * z j)
    - l.yref i

/-- the cost depends on this variable at most linearly -/
def LinearOnly (q : Quad K) (n a : Nat) : Prop := ∀ b < n, q.H a b = 0

/-- `yref` solves `W y = r` -/
def Solves (ny : Nat) (W : Nat → Nat → K) (r y : Nat → K) : Prop := ∀ i < ny, ∑ j ∈ range ny, W i j * y j = r i

/-- half the weighted squared distance to a point -/
def SquareOf (q : Quad K) (n : Nat) (r : Nat → K) : Prop := ∀ w, q.at n w = wls n q.H fun a => w a - r a

/-- `H`, restricted to the variables on which it depends, is nonsingular -/
def Nonsingular (q : Quad K) (n : Nat) : Prop :=
  ∀ d : Nat → K, (∀ a < n, ∑ b ∈ range n, q.H a b * d b = 0) → ∀ a < n, ¬ LinearOnly q n a → d a = 0

/-- a linear solver: what it returns solves the system, and it returns for nonsingular matrices -/
def IsSolver (solve : Nat → (Nat → Nat → K) → (Nat → K) → Option (Nat → K)) : Prop :=
  (∀ ny W r y, solve ny W r = some y → Solves ny W r y)
  ∧ ∀ ny W r, (∀ d : Nat → K, Solves ny W (fun _ => 0) d → ∀ i < ny, d i = 0) → ∃ y, solve ny W r = some y

end Acados.AutoCost
