import Mathlib.Logic.Function.Basic
/-!
# Specification of batch solvers

A batch solver is a family of independent solvers, one for every number; a batch call acts on the first `n` of them as
the call of the single solver would.
-/
namespace Acados.Batch

/-- outcome of a call in Python: it returns, it raises an exception, it has undefined behaviour -/
inductive Res (α : Type) | ok (a : α) | raise | ub

def Res.bind {α β : Type} : Res α → (α → Res β) → Res β
  | .ok a, f => f a
  | .raise, _ => .raise
  | .ub, _ => .ub

/-- calls of a batch solver and of its members.  `C` is the state of a solver. -/
inductive BOp (C : Type)
  /-- a setter or a reset for `n` solvers: solver `i` does `f i` -/
  | change (n : Nat) (f : Nat → C → C)
  /-- solve; no number: as many as in the last call -/
  | solve (n : Option Nat)
  /-- a getter -/
  | read (n : Option Nat)
  /-- any call of one solver that is not a solve -/
  | single (i : Nat) (f : C → C)
  /-- solve with one solver -/
  | singleSolve (i : Nat)

/-- the family of solvers, the status each of them returned last, and the current size of the batch -/
structure Family (C : Type) where
  cap : Nat → C
  status : Nat → Int
  cur : Nat

variable {C : Type}

/-- the size of a call that cannot create solvers -/
def sizeOf (cur : Nat) : Option Nat → Option Nat
  | none => some cur
  | some n => if n ≤ cur then some n else none

/-- what a call should do: `sv` is the solve function of a single solver -/
def famStep (sv : C → C × Int) (a : Family C) : BOp C → Option (Family C)
  | .change n f => some ⟨fun i => if i < n then f i (a.cap i) else a.cap i, a.status, n⟩
  | .solve n => (sizeOf a.cur n).map fun n =>
    ⟨fun i => if i < n then (sv (a.cap i)).1 else a.cap i, fun i => if i < n then (sv (a.cap i)).2 else a.status i, n⟩
  | .read n => (sizeOf a.cur n).map fun n => { a with cur := n }
  | .single i f => some { a with cap := Function.update a.cap i (f (a.cap i)) }
  | .singleSolve i => some { a with cap := Function.update a.cap i (sv (a.cap i)).1, status := Function.update a.status i (sv (a.cap i)).2 }

/-- a history -/
def famRun (sv : C → C × Int) (a : Family C) (ops : List (BOp C)) : Option (Family C) :=
  ops.foldl (fun (a : Option (Family C)) o => a.bind fun a => famStep sv a o) (some a)

end Acados.Batch
