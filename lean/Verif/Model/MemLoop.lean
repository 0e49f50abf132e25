import Verif.Model.Mem
/-!
# Loops over stages in `*_assign` functions

`for (i = 0; i < n; i++) { ... }` around allocation statements.
-/
namespace Acados.Mem

/-- the statements of `for (int i = 0; i < n; i++) f(i)`, in order -/
def loop (n : Nat) (f : Nat → List Op) : List Op := (List.range n).flatMap f

end Acados.Mem
