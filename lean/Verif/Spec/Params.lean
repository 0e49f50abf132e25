import Mathlib.Logic.Function.Basic
/-!
# Specification of parameter updates (C41)

What a user thinks the state is: one parameter vector per stage and, per external function, the stage it was attached
to.  No memory, no addresses.
-/
namespace Acados.Params
variable {K : Type*}

/-- requests of a user -/
inductive Op (K : Type*) where
  /-- give all parameters of one stage -/
  | setAll (stage : Nat) (p : Nat → K)
  /-- give the listed `(index, value)` pairs of one stage -/
  | setSparse (stage : Nat) (upd : List (Int × K))
  /-- give the parameters of all stages, stage after stage -/
  | setFlat (p : Nat → K)
  /-- make external function `f` use the parameters of a stage -/
  | attach (f : Nat) (stage : Nat)

/-- the user's view -/
structure View (K : Type*) where
  /-- parameter `i` of stage `s` -/
  val : Nat → Nat → K
  /-- stage a function is attached to -/
  att : Nat → Option Nat

/-- the last value listed for an index -/
def lastFor (upd : List (Int × K)) (i : Nat) : Option K := (upd.reverse.find? fun u => u.1 == (i : Int)).map Prod.snd

/-- position of the first parameter of a stage in the concatenation of all parameter vectors -/
def offset (np : Nat → Nat) : Nat → Nat
  | 0 => 0
  | s + 1 => offset np s + np s

/-- effect of a request on the user's view -/
def View.apply (np : Nat → Nat) (v : View K) : Op K → View K
  | .setAll s p => { v with val := fun t i => if t = s then p i else v.val t i }
  | .setSparse s upd => { v with val := fun t i => if t = s then (lastFor upd i).getD (v.val t i) else v.val t i }
  | .setFlat p => { v with val := fun t i => p (offset np t + i) }
  | .attach f s => { v with att := fun g => if g = f then some s else v.att g }

/-- a request that refers to existing stages and parameters only -/
def Op.InRange (N : Nat) (np : Nat → Nat) : Op K → Prop
  | .setAll s _ => s ≤ N
  | .setSparse s upd => s ≤ N ∧ ∀ u ∈ upd, 0 ≤ u.1 ∧ u.1 < np s
  | .setFlat _ => True
  | .attach _ s => s ≤ N

end Acados.Params
