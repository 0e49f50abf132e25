/-!
# Specification of dimension bookkeeping (C44)

The user's view of the problem dimensions: one number per field and stage, the last one written (zero if none).
-/
namespace Acados.Dims

/-- dimension fields a user writes -/
inductive Fld where
  | nx | nu | nz | ns | np
  | nbx | nbu | ng | nh | nsbx | nsbu | nsg | nsh | nbxe | nbue | nge | nhe
deriving DecidableEq, Repr

/-- fields set for the whole horizon at once -/
def Fld.isOptVar : Fld → Bool
  | .nx | .nu | .nz | .ns | .np => true
  | _ => false

/-- calls of the user -/
inductive Op where
  /-- `ocp_nlp_dims_set_opt_vars(config, dims, field, array)` -/
  | optVar (f : Fld) (a : Nat → Nat)
  /-- `ocp_nlp_dims_set_constraints(config, dims, stage, field, &value)` -/
  | con (stage : Nat) (f : Fld) (v : Nat)

/-- calls with fields of the right group -/
def Op.Valid (N : Nat) : Op → Prop
  | .optVar f _ => f.isOptVar = true
  | .con s f _ => s ≤ N ∧ f.isOptVar = false

/-- the last value written (calls in order; later calls win) -/
def last (ops : List Op) (f : Fld) (s : Nat) : Nat :=
  ops.foldl (fun x op => match op with
    | .optVar g a => if g = f then a s else x
    | .con t g v => if t = s ∧ g = f then v else x) 0

end Acados.Dims
