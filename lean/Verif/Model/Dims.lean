import Verif.Spec.Dims
import Mathlib.Logic.Function.Basic
import Mathlib.Tactic.Common
/-!
# Dimension bookkeeping

`acados/ocp_nlp/ocp_nlp_common.c` lines 251-741, `acados/ocp_nlp/ocp_nlp_constraints_bgh.c` lines 60-280,
`acados/ocp_nlp/ocp_nlp_reg_common.c` lines 126-160, `acados/ocp_nlp/ocp_nlp_cost_ls.c` lines 87-124,
`acados/ocp_nlp/ocp_nlp_dynamics_cont.c` lines 146-181.

Dimensions are natural numbers (no overflow).  The loops over the stages have independent iterations and are written
pointwise.  The HPIPM routine `d_ocp_qp_dim_set` is taken to store the value in the named field and stage.  The bgp
constraint module (`ocp_nlp_constraints_bgp.c` lines 57-260) is the same with `nphi`, `nsphi`, `nphie` for `nh`, `nsh`,
`nhe`.
-/
namespace Acados.Dims

/-- `ocp_nlp_constraints_bgh_dims`, header lines 50-75: `raw` are the plain fields -/
structure ConDims where
  raw : Fld → Nat
  nb : Nat
  nsDerived : Nat

/-- fields of `ocp_qp_dims` (HPIPM `d_ocp_qp_dim`) -/
structure QpDims where
  nx : Nat
  nu : Nat
  nbx : Nat
  nbu : Nat
  ng : Nat
  ns : Nat
  nbxe : Nat
  nbue : Nat
  nge : Nat

/-- `ocp_nlp_reg_dims` -/
structure RegDims where
  nx : Nat
  nu : Nat
  nbx : Nat
  nbu : Nat
  ng : Nat

/-- dimensions of a cost module set from here -/
structure CostDims where
  nx : Nat
  nu : Nat
  nz : Nat
  ns : Nat

/-- dimensions of a dynamics module set from here -/
structure DynDims where
  nx : Nat
  nx1 : Nat
  nu : Nat
  nu1 : Nat
  nz : Nat
  np : Nat

/-- `ocp_nlp_dims`, one entry per stage -/
structure NlpDims where
  nv : Nat → Nat
  nx : Nat → Nat
  nu : Nat → Nat
  nz : Nat → Nat
  ns : Nat → Nat
  np : Nat → Nat
  ni : Nat → Nat
  nb : Nat → Nat
  ng : Nat → Nat
  niNl : Nat → Nat
  con : Nat → ConDims
  qp : Nat → QpDims
  rqp : Nat → QpDims
  reg : Nat → RegDims
  cost : Nat → CostDims
  dyn : Nat → DynDims

/-- `ocp_nlp_dims_assign_self` lines 290-322, `ocp_nlp_constraints_bgh_dims_assign` lines 69-86,
`ocp_nlp_reg_dims_assign` lines 104-119 and HPIPM: everything starts at zero (`ns_derived`, not written there, is zero
because the interface allocates with `calloc`) -/
def init : NlpDims where
  nv _ := 0
  nx _ := 0
  nu _ := 0
  nz _ := 0
  ns _ := 0
  np _ := 0
  ni _ := 0
  nb _ := 0
  ng _ := 0
  niNl _ := 0
  con _ := ⟨fun _ => 0, 0, 0⟩
  qp _ := ⟨0, 0, 0, 0, 0, 0, 0, 0, 0⟩
  rqp _ := ⟨0, 0, 0, 0, 0, 0, 0, 0, 0⟩
  reg _ := ⟨0, 0, 0, 0, 0⟩
  cost _ := ⟨0, 0, 0, 0⟩
  dyn _ := ⟨0, 0, 0, 0, 0, 0⟩

/-- `ocp_nlp_constraints_bgh_dims_set`, lines 102-183 -/
def conSet (f : Fld) (v : Nat) (d : ConDims) : ConDims :=
  let r := Function.update d.raw f v
  match f with
  | .nbx | .nbu => { d with raw := r, nb := r .nbu + r .nbx }
  | .nsbu | .nsbx | .nsg | .nsh => { d with raw := r, nsDerived := r .nsbu + r .nsbx + r .nsg + r .nsh }
  | _ => { d with raw := r }

/-- `ocp_nlp_constraints_bgh_dims_get`, field `ni`, line 192 -/
def getNi (d : ConDims) : Nat := d.raw .nbx + d.raw .nbu + d.raw .ng + d.raw .nh + d.raw .ns
/-- field `ng_qp_solver`, line 241 -/
def getNgQp (d : ConDims) : Nat := d.raw .ng + d.raw .nh
/-- field `nge_qp_solver`, line 269 -/
def getNgeQp (d : ConDims) : Nat := d.raw .nge + d.raw .nhe

/-- apply a function to the stages `0..n-1` -/
def upTo {α : Type} (n : Nat) (f : Nat → α → α) (x : Nat → α) (i : Nat) : α := if i < n then f i (x i) else x i

/-- `ocp_nlp_dims_set_opt_vars`, lines 427-627; `none`: `exit(1)` -/
def setOptVars (N : Nat) (f : Fld) (a : Nat → Nat) (d : NlpDims) : Option NlpDims :=
  match f with
  | .nx => some { d with
      nx := upTo (N + 1) (fun i _ => a i) d.nx
      nv := upTo (N + 1) (fun i _ => d.nu i + a i + 2 * d.ns i) d.nv
      cost := upTo (N + 1) (fun i c => { c with nx := a i }) d.cost
      dyn := upTo N (fun i c => { c with nx := a i, nx1 := a (i + 1) }) d.dyn
      con := upTo (N + 1) (fun i c => conSet .nx (a i) c) d.con
      qp := upTo (N + 1) (fun i c => { c with nx := a i }) d.qp
      rqp := upTo (N + 1) (fun i c => { c with nx := a i }) d.rqp
      reg := upTo (N + 1) (fun i c => { c with nx := a i }) d.reg }
  | .nu => some { d with
      nu := upTo (N + 1) (fun i _ => a i) d.nu
      nv := upTo (N + 1) (fun i _ => a i + d.nx i + 2 * d.ns i) d.nv
      cost := upTo (N + 1) (fun i c => { c with nu := a i }) d.cost
      dyn := upTo N (fun i c => { c with nu := a i, nu1 := a (i + 1) }) d.dyn
      con := upTo (N + 1) (fun i c => conSet .nu (a i) c) d.con
      qp := upTo (N + 1) (fun i c => { c with nu := a i }) d.qp
      rqp := upTo (N + 1) (fun i c => { c with nu := a i }) d.rqp
      reg := upTo (N + 1) (fun i c => { c with nu := a i }) d.reg }
  | .nz => some { d with
      nz := upTo (N + 1) (fun i _ => a i) d.nz
      cost := upTo (N + 1) (fun i c => { c with nz := a i }) d.cost
      dyn := upTo N (fun i c => { c with nz := a i }) d.dyn
      con := upTo (N + 1) (fun i c => conSet .nz (a i) c) d.con }
  | .ns => some { d with
      ns := upTo (N + 1) (fun i _ => a i) d.ns
      nv := upTo (N + 1) (fun i _ => d.nu i + d.nx i + 2 * a i) d.nv
      cost := upTo (N + 1) (fun i c => { c with ns := a i }) d.cost
      con := upTo (N + 1) (fun i c => conSet .ns (a i) c) d.con
      qp := upTo (N + 1) (fun i c => { c with ns := a i }) d.qp }
  | .np => some { d with
      np := upTo (N + 1) (fun i _ => a i) d.np
      dyn := upTo N (fun i c => { c with np := a i }) d.dyn }
  | _ => none

/-- `ocp_nlp_update_relaxed_qp_solver_ns_from_constraints_module`, lines 631-656 -/
def relaxedNs (stage : Nat) (c : ConDims) : Nat :=
  getNgQp c + c.raw .nsbu + (if stage = 0 then c.raw .nsbx else c.raw .nbx)

/-- `ocp_nlp_dims_set_constraints`, lines 659-741; `none`: `exit(1)` (unknown field, or state equalities at a later
stage, lines 713-722).  The fields `nx`, `nu`, `nz`, `ns` are accepted by the constraint module too (the value is stored
there and nowhere else); `np` is not. -/
def setCon (s : Nat) (f : Fld) (v : Nat) (d : NlpDims) : Option NlpDims :=
  if f = .np then none else
  let c := conSet f v (d.con s)
  let d : NlpDims := { d with
    con := Function.update d.con s c
    ni := Function.update d.ni s (getNi c)
    nb := Function.update d.nb s c.nb
    ng := Function.update d.ng s (c.raw .ng)
    niNl := Function.update d.niNl s (c.raw .nh) }
  match f with
  | .nbx => some { d with
      qp := Function.update d.qp s { d.qp s with nbx := v }
      rqp := Function.update d.rqp s { d.rqp s with nbx := v, ns := relaxedNs s c }
      reg := Function.update d.reg s { d.reg s with nbx := v } }
  | .nbu => some { d with
      qp := Function.update d.qp s { d.qp s with nbu := v }
      rqp := Function.update d.rqp s { d.rqp s with nbu := v, ns := relaxedNs s c }
      reg := Function.update d.reg s { d.reg s with nbu := v } }
  | .nsbx => some { d with rqp := Function.update d.rqp s { d.rqp s with ns := relaxedNs s c } }
  | .nsbu => some { d with rqp := Function.update d.rqp s { d.rqp s with ns := relaxedNs s c } }
  | .ng | .nh => some { d with
      qp := Function.update d.qp s { d.qp s with ng := getNgQp c }
      rqp := Function.update d.rqp s { d.rqp s with ng := getNgQp c, ns := relaxedNs s c }
      reg := Function.update d.reg s { d.reg s with ng := getNgQp c } }
  | .nbxe =>
      if s ≠ 0 ∧ v ≠ 0 then none
      else some { d with
        qp := Function.update d.qp s { d.qp s with nbxe := v }
        rqp := Function.update d.rqp s { d.rqp s with nbxe := v } }
  | .nbue => some { d with qp := Function.update d.qp s { d.qp s with nbue := v } }
  | .nge | .nhe => some { d with qp := Function.update d.qp s { d.qp s with nge := getNgeQp c } }
  | _ => some d

/-- one call -/
def step (N : Nat) (d : NlpDims) : Op → Option NlpDims
  | .optVar f a => setOptVars N f a d
  | .con s f v => setCon s f v d

/-- a sequence of calls -/
def run (N : Nat) (ops : List Op) : Option NlpDims := ops.foldlM (step N) init

/-- the consistency test of `ocp_nlp_constraints_bgh_precompute`, lines 1683-1702, without `idxs_rev`; `false`:
`exit(1)` -/
def precomputeOk (c : ConDims) : Bool := decide (c.nsDerived = c.raw .ns)

end Acados.Dims
