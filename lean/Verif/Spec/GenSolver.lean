import Mathlib.Logic.Function.Basic
/-!
# Specification: what the numbers of a generated solver should be

The description of an optimal control problem (the json file) lists its data three times: for the initial stage
(suffix `_0`), for the stages between (no suffix), for the terminal stage (suffix `_e`).
-/
namespace Acados.GenSolver

/-- which of the three descriptions belongs to a stage -/
inductive Kind | init | path | term
  deriving DecidableEq

inductive CostType | linearLs | nonlinearLs | convexOverNonlinear | external
  deriving DecidableEq

/-- the numerical fields of the cost and constraint modules that a generated solver sets -/
inductive Fld
  | yref | W | Vx | Vu | Vz | Zl | Zu | zl | zu
  | idxbx | lbx | ubx | idxbxe | lh | uh | lphi | uphi | idxs_rev | ls | us
  | idxsh | lsh | ush | idxsphi | lsphi | usphi
  | idxbu | lbu | ubu | D | C | lg | ug | idxsbu | lsbu | usbu | idxsg | lsg | usg | idxsbx | lsbx | usbx
  deriving DecidableEq

/-- an array handed to a setter -/
inductive Val (K : Type) | nums (l : List K) | idx (l : List Nat)

/-- the description of the problem -/
structure Desc (K : Type) where
  /-- `solver_options.N_horizon` -/
  N : Nat
  timeSteps : Nat → K
  costScaling : Nat → K
  nx : Nat
  nu : Nat
  nz : Nat
  np : Nat
  npGlobal : Nat
  nGlobalData : Nat
  ny : Kind → Nat
  ns : Kind → Nat
  nbx : Kind → Nat
  nbxe0 : Nat
  nbu : Nat
  ng : Kind → Nat
  nh : Kind → Nat
  nphi : Kind → Nat
  nsbu : Nat
  nsbx : Kind → Nat
  nsg : Kind → Nat
  nsh : Kind → Nat
  nsphi : Kind → Nat
  costType : Kind → CostType
  bgp : Kind → Bool
  /-- the soft constraints are described by `idxs_rev` -/
  hasRev : Kind → Bool
  /-- `constraints.has_x0` -/
  hasX0 : Bool
  /-- entries of the vectors of the description -/
  vec : Kind → Fld → Nat → K
  /-- entries of the matrices of the description: row, column -/
  mat : Kind → Fld → Nat → Nat → K
  /-- entries of the index vectors of the description -/
  idx : Kind → Fld → Nat → Nat
  /-- `parameter_values` -/
  p : Nat → K
  /-- `p_global_values` -/
  pGlobal : Nat → K
  /-- the generated function that computes the data depending on the global parameters only -/
  pre : List K → List K

variable {K : Type}

/-- the description that belongs to stage `i` of a horizon of length `N` -/
def kindOf (N i : Nat) : Kind := if i = N then .term else if i = 0 then .init else .path

/-- input bounds and linear constraints have no description of their own for the initial stage -/
def shared : Kind → Kind
  | .term => .term
  | _ => .path

/-- number of rows with bounds of their own -/
def Desc.rows (d : Desc K) (k : Kind) : Nat :=
  (if k = .term then 0 else d.nbu) + d.nbx k + d.ng (shared k) + d.nh k + d.nphi k

/-- a vector of the description -/
def Desc.vecVal (d : Desc K) (k : Kind) (f : Fld) (n : Nat) : Val K := .nums ((List.range n).map (d.vec k f))

/-- a matrix of the description, column by column -/
def Desc.matVal (d : Desc K) (k : Kind) (f : Fld) (r c : Nat) : Val K :=
  .nums ((List.range (r * c)).map (fun q => d.mat k f (q % r) (q / r)))

/-- an index vector of the description -/
def Desc.idxVal (d : Desc K) (k : Kind) (f : Fld) (n : Nat) : Val K := .idx ((List.range n).map (d.idx k f))

/-- what the description says about a field of a stage of kind `k`; `none`: the field is empty there -/
def Desc.value (d : Desc K) (k : Kind) (f : Fld) : Option (Val K) :=
  let opt := fun (n : Nat) (v : Val K) => if n = 0 then none else some v
  match f with
  | .yref => opt (d.ny k) (d.vecVal k f (d.ny k))
  | .W => if d.costType k = .linearLs ∨ d.costType k = .nonlinearLs then opt (d.ny k) (d.matVal k f (d.ny k) (d.ny k)) else none
  | .Vx => if d.costType k = .linearLs then opt (d.ny k) (d.matVal k f (d.ny k) d.nx) else none
  | .Vu => if d.costType k = .linearLs ∧ k ≠ .term ∧ d.nu ≠ 0 then opt (d.ny k) (d.matVal k f (d.ny k) d.nu) else none
  | .Vz => if d.costType k = .linearLs ∧ k ≠ .term ∧ d.nz ≠ 0 then opt (d.ny k) (d.matVal k f (d.ny k) d.nz) else none
  | .Zl | .Zu | .zl | .zu => opt (d.ns k) (d.vecVal k f (d.ns k))
  | .idxbx => opt (d.nbx k) (d.idxVal k f (d.nbx k))
  | .lbx | .ubx => opt (d.nbx k) (d.vecVal k f (d.nbx k))
  | .idxbxe => if k = .init then opt d.nbxe0 (d.idxVal k f d.nbxe0) else none
  | .lh | .uh => opt (d.nh k) (d.vecVal k f (d.nh k))
  | .lphi | .uphi => if d.bgp k then opt (d.nphi k) (d.vecVal k f (d.nphi k)) else none
  | .idxs_rev => if d.hasRev k then some (d.idxVal k f (d.rows k)) else none
  | .ls | .us => if d.hasRev k then some (d.vecVal k f (d.ns k)) else none
  | .idxsh => opt (d.nsh k) (d.idxVal k f (d.nsh k))
  | .lsh | .ush => opt (d.nsh k) (d.vecVal k f (d.nsh k))
  | .idxsphi => opt (d.nsphi k) (d.idxVal k f (d.nsphi k))
  | .lsphi | .usphi => opt (d.nsphi k) (d.vecVal k f (d.nsphi k))
  | .idxbu => if k = .term then none else opt d.nbu (d.idxVal .path f d.nbu)
  | .lbu | .ubu => if k = .term then none else opt d.nbu (d.vecVal .path f d.nbu)
  | .D => if k = .term then none else opt (d.ng .path) (d.matVal .path f (d.ng .path) d.nu)
  | .C => opt (d.ng (shared k)) (d.matVal (shared k) f (d.ng (shared k)) d.nx)
  | .lg | .ug => opt (d.ng (shared k)) (d.vecVal (shared k) f (d.ng (shared k)))
  | .idxsbu => if k = .term then none else opt d.nsbu (d.idxVal .path f d.nsbu)
  | .lsbu | .usbu => if k = .term then none else opt d.nsbu (d.vecVal .path f d.nsbu)
  | .idxsg => opt (d.nsg (shared k)) (d.idxVal (shared k) f (d.nsg (shared k)))
  | .lsg | .usg => opt (d.nsg (shared k)) (d.vecVal (shared k) f (d.nsg (shared k)))
  | .idxsbx => opt (d.nsbx k) (d.idxVal k f (d.nsbx k))
  | .lsbx | .usbx => opt (d.nsbx k) (d.vecVal k f (d.nsbx k))

/-- consistency of a description, as `AcadosOcp.make_consistent` leaves it: a stage has nonlinear or
convex-over-nonlinear constraints, not both; the initial stage has no soft state bounds; soft constraints are described
by `idxs_rev` or by one list per type -/
structure Desc.Ok (d : Desc K) : Prop where
  oneType : ∀ k, d.nh k = 0 ∨ d.nphi k = 0
  noSbx0 : d.nsbx .init = 0
  rev : ∀ k, d.hasRev k = true → d.nsh k = 0 ∧ d.nsphi k = 0 ∧ d.nsbx k = 0
  revE : d.hasRev .term = true → d.nsg .term = 0
  /-- `has_x0`: all states of the initial stage are bounded -/
  x0 : d.hasX0 = true → d.nbx .init = d.nx

end Acados.GenSolver
