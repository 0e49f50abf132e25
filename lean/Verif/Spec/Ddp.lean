import Verif.Model.Ddp
/-!
# What a simulated trajectory is

`xOf`, `uOf` are the state and the input of a stage as vectors padded with zeros.
-/
namespace Acados.Ddp
variable {K : Type*} [Field K]

def xOf (d : Dims) (ux : Nat → Nat → K) (i j : Nat) : K := if j < d.nx i then ux i (d.nu i + j) else 0
def uOf (d : Dims) (ux : Nat → Nat → K) (i j : Nat) : K := if j < d.nu i then ux i j else 0

/-- `x_{i+1} = f_i(x_i, u_i)` for every stage -/
def Simulated (d : Dims) (f : Dyn K) (ux : Nat → Nat → K) : Prop :=
  ∀ i < d.N, ∀ j < d.nx (i + 1), xOf d ux (i + 1) j = f i (xOf d ux i) (uOf d ux i) j

/-- the trajectory starts at `x0` -/
def StartsAt (d : Dims) (x0 : Nat → K) (ux : Nat → Nat → K) : Prop :=
  ∀ j < d.nx 0, xOf d ux 0 j = x0 j

end Acados.Ddp
