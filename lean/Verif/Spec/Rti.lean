import Verif.Model.Rti
/-!
# Vocabulary for the properties of the real-time iteration solver
-/
namespace Acados.Rti
variable {P B Z M V C X O : Type*}

/-- every statistics entry was written inside the allocated array -/
def InBounds (s : St P B Z M V C X O) : Prop := ∀ w ∈ s.writes, 0 ≤ w ∧ w < s.statN * s.statM

/-- number of feedback steps since the last preparation, after each solver call of a history -/
def feedCounts : Nat → List (Op P B) → List Nat
  | _, [] => []
  | n, .setBounds _ :: l => feedCounts n l
  | n, .setParam _ :: l => feedCounts n l
  | _, .run .prep :: l => 0 :: feedCounts 0 l
  | n, .run .feed :: l => (n + 1) :: feedCounts (n + 1) l
  | _, .run .both :: l => 1 :: feedCounts 1 l

/-- the regularisation acts on the matrices only, all of it in the preparation phase: the modules
`noreg`, `glm`, `mirror`, `project` and `project_reduc_hess`.  They modify the Hessian blocks, which are
not read when the QP vectors are formed. -/
structure LhsOnly (E : Env P B Z M V C X O) (r : M → M) : Prop where
  reg : ∀ m v, E.reg m v = (r m, v)
  lhs : ∀ m v, E.regLhs m v = (r m, v)
  rhs : ∀ m v, E.regRhs m v = (m, v)
  vec : ∀ b z m, E.vec b z (r m) = E.vec b z m

/-- an action that only changes user data -/
def IsSet : Op P B → Prop
  | .run _ => False
  | _ => True

/-- an action that is not a preparation -/
def NoPrep : Op P B → Prop
  | .run .prep => False
  | .run .both => False
  | _ => True

/-- the bounds in force after a history -/
def boundsAfter (b : B) : List (Op P B) → B
  | [] => b
  | .setBounds b' :: l => boundsAfter b' l
  | _ :: l => boundsAfter b l

/-- every feedback call has its own preparation; the flag tells that a preparation is unused -/
def WellPhased : Bool → List (Op P B) → Prop
  | _, [] => True
  | f, .setBounds _ :: l => WellPhased f l
  | f, .setParam _ :: l => WellPhased f l
  | _, .run .prep :: l => WellPhased true l
  | f, .run .feed :: l => f = true ∧ WellPhased false l
  | _, .run .both :: l => WellPhased false l

end Acados.Rti
