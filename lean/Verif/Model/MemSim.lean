import Mathlib.Algebra.BigOperators.Group.Finset.Basic
import Verif.Model.MemModules
/-!
# Size and layout of integrators, dynamics modules and external functions

As in `Verif/Model/MemModules.lean`: `...Size` is the value of the C `*_calculate_size` function and
`...Ops` the sequence of pointer movements of the matching assign / cast function.  `sz` is `sizeof`
of the object's own struct; `sm`, `sv` are `sizeof(struct blasfeo_dmat)`, `sizeof(struct
blasfeo_dvec)`.  A sub-object for which another module's size function is called is one block of that
size (`C02_nested` in `Verif/Props/MemNest.lean` puts the layout of the sub-object into it).
-/
namespace Acados.Mem

/-! ## External functions -/

/-- what `casadi_work` and the sparsity functions of a generated function report
(external_function_generic.c:847-862). -/
structure CasadiD where
  argsNum : Nat
  resNum : Nat
  intWork : Nat
  floatWork : Nat
  /-- `casadi_nnz(casadi_sparsity_in(i))` -/
  argSize : Nat → Nat
  /-- `casadi_nnz(casadi_sparsity_out(i))` -/
  resSize : Nat → Nat

/-- `external_function_param_generic_calculate_size`, external_function_generic.c:94-128. -/
def extParamGenericSize (np : Nat) : Nat := makeIntMultipleOf 8 (8 * np + 8)

/-- `external_function_param_generic_assign`, external_function_generic.c:132-149. -/
def extParamGenericOps (np : Nat) : List Op := [.align 8, .doubles np]

/-- `external_function_casadi_calculate_size` (external_function_generic.c:838-897) and
`external_function_param_casadi_calculate_size` (1063-1134): the same computation. -/
def casadiSize (c : CasadiD) (externalWorkspace : Bool) : Nat :=
  makeIntMultipleOf 8
    (8 * c.argsNum + 8 * c.resNum + 4 * (2 * c.argsNum) + 4 * (2 * c.resNum) + 4 * c.intWork
      + 8 * (∑ i ∈ Finset.range c.argsNum, c.argSize i)
      + 8 * (∑ i ∈ Finset.range c.resNum, c.resSize i)
      + (if externalWorkspace then 0 else 8 * c.floatWork) + 8 + 8)

/-- `external_function_casadi_assign` (external_function_generic.c:901-958) and
`external_function_param_casadi_assign` (1138-1196). -/
def casadiOps (c : CasadiD) (externalWorkspace : Bool) : List Op :=
  [.align 8, .ptrs 8 c.argsNum, .ptrs 8 c.resNum, .ints c.argsNum, .ints c.argsNum, .ints c.resNum,
   .ints c.resNum, .ints c.intWork, .align 8]
    ++ loop c.argsNum (fun i => [.doubles (c.argSize i)])
    ++ loop c.resNum (fun i => [.doubles (c.resSize i)])
    ++ (if externalWorkspace then [] else [.doubles c.floatWork])

/-- `external_function_external_param_casadi_calculate_size`, external_function_generic.c:1418-1492:
the arguments `idxP` (parameters) and `idxG` (global data, if any) point to memory of the caller and
are not counted. -/
def casadiExtParamSize (c : CasadiD) (idxP : Nat) (idxG : Option Nat) (externalWorkspace : Bool) :
    Nat :=
  makeIntMultipleOf 8
    (8 * c.argsNum + 8 * c.resNum + 4 * (2 * c.argsNum) + 4 * (2 * c.resNum) + 4 * c.intWork
      + 8 * (∑ i ∈ Finset.range c.argsNum,
          if i ≠ idxP ∧ some i ≠ idxG then c.argSize i else 0)
      + 8 * (∑ i ∈ Finset.range c.resNum, c.resSize i)
      + (if externalWorkspace then 0 else 8 * c.floatWork) + 8 + 8)

/-- `external_function_external_param_casadi_assign`, external_function_generic.c:1496-1562. -/
def casadiExtParamOps (c : CasadiD) (idxP : Nat) (idxG : Option Nat) (externalWorkspace : Bool) :
    List Op :=
  [.align 8, .ptrs 8 c.argsNum, .ptrs 8 c.resNum, .ints c.argsNum, .ints c.argsNum, .ints c.resNum,
   .ints c.resNum, .ints c.intWork, .align 8]
    ++ loop c.argsNum (fun i => if i ≠ idxP ∧ some i ≠ idxG then [.doubles (c.argSize i)] else [])
    ++ loop c.resNum (fun i => [.doubles (c.resSize i)])
    ++ (if externalWorkspace then [] else [.doubles c.floatWork])

/-! ## Inputs and outputs of the integrators -/

/-- `sim_in_calculate_size`, acados/sim/sim_common.c:77-101; `model` = `model_calculate_size`. -/
def simInSize (sz model nx nu : Nat) : Nat :=
  makeIntMultipleOf 8 (sz + 8 * nx + 8 * nu + 8 * (nx * (nx + nu)) + 8 * (nx + nu) + model) + 16

/-- `sim_in_assign`, sim_common.c:105-144. -/
def simInOps (sz model nx nu : Nat) : List Op :=
  [.struct sz, .align 8, .struct model, .align 8, .doubles nx, .doubles nu,
   .doubles (nx * (nx + nu)), .doubles (nx + nu)]

/-- `sim_out_calculate_size`, sim_common.c:272-300; `szInfo` = `sizeof(sim_info)`. -/
def simOutSize (sz szInfo nx nu nz : Nat) : Nat :=
  makeIntMultipleOf 8
    (sz + szInfo + 8 * nx + 8 * (nx * (nx + nu)) + 8 * (nx + nu) + 8 * ((nx + nu) * (nx + nu))
      + 8 * nz + 8 * (nz * (nx + nu)) + 8 * (nx + nu)) + 8

/-- `sim_out_assign`, sim_common.c:304-337. -/
def simOutOps (sz szInfo nx nu nz : Nat) : List Op :=
  [.struct sz, .struct szInfo, .align 8, .doubles nx, .doubles (nx * (nx + nu)), .doubles (nx + nu),
   .doubles ((nx + nu) * (nx + nu)), .doubles (nx + nu), .doubles nz, .doubles (nz * (nx + nu))]

/-! ## Explicit Runge-Kutta -/

/-- `sim_erk_opts_calculate_size`, sim_erk_integrator.c:214-228; `m` = `NS_MAX`. -/
def erkOptsSize (sz m : Nat) : Nat := makeIntMultipleOf 8 (sz + 8 * (m * m) + 8 * m + 8 * m) + 8

/-- `sim_erk_opts_assign`, sim_erk_integrator.c:232-254. -/
def erkOptsOps (sz m : Nat) : List Op :=
  [.struct sz, .align 8, .doubles (m * m), .doubles m, .doubles m]

/-- the fields of `sim_opts` the ERK size function reads (sim_common.h:93-160). -/
structure ErkO where
  ns : Nat
  steps : Nat
  numForwSens : Nat
  sensForw : Bool
  sensForwP : Bool
  sensAdj : Bool
  sensHess : Bool

/-- dimensions of `sim_erk_dims` (sim_erk_integrator.h). -/
structure ErkD where
  nx : Nat
  nu : Nat
  np : Nat

/-- `sim_erk_memory_calculate_size`, sim_erk_integrator.c:336-349. -/
def erkMemorySize (sz : Nat) (d : ErkD) (o : ErkO) : Nat :=
  sz + (if o.sensForwP then 8 * (d.nx * d.np) else 0)

/-- `sim_erk_memory_assign`, sim_erk_integrator.c:353-372. -/
def erkMemoryOps (sz : Nat) (d : ErkD) (o : ErkO) : List Op :=
  [.struct sz] ++ (if o.sensForwP then [.rawDoubles (d.nx * d.np)] else [])

/-- `nf`, sim_erk_integrator.c:457-458. -/
def ErkO.nf (o : ErkO) : Nat := if !o.sensForw && !o.sensForwP then 0 else o.numForwSens
/-- `nX`, sim_erk_integrator.c:460-462. -/
def erkNX (d : ErkD) (o : ErkO) : Nat := d.nx * (1 + o.nf + (if o.sensForwP then d.np else 0))
/-- `nhess`, sim_erk_integrator.c:463. -/
def ErkO.nhess (o : ErkO) : Nat := (o.nf + 1) * o.nf / 2

/-- `sim_erk_workspace_calculate_size`, sim_erk_integrator.c:447-498. -/
def erkWorkspaceSize (sz : Nat) (d : ErkD) (o : ErkO) : Nat :=
  makeIntMultipleOf 8
    (sz + 8 * (erkNX d o + d.nu)
      + (if o.sensAdj || o.sensHess then
          8 * (o.steps * o.ns * erkNX d o) + 8 * ((o.steps + 1) * erkNX d o)
         else 8 * (o.ns * erkNX d o) + 8 * erkNX d o)
      + (if o.sensHess then
          8 * (erkNX d o + d.nx + d.nu) + 8 * (d.nx + d.nu + o.nhess)
            + 8 * (o.ns * (d.nx + d.nu + o.nhess))
         else if o.sensAdj then
          8 * (d.nx * 2 + d.nu) + 8 * (d.nx + d.nu) + 8 * (o.ns * (d.nx + d.nu))
         else 0)) + 8

/-- `sim_erk_cast_workspace`, sim_erk_integrator.c:502-584. -/
def erkWorkspaceOps (sz : Nat) (d : ErkD) (o : ErkO) : List Op :=
  [.struct sz, .align 8, .rawDoubles (erkNX d o + d.nu)]
    ++ (if o.sensAdj || o.sensHess then
        [.rawDoubles (o.ns * o.steps * erkNX d o), .rawDoubles ((o.steps + 1) * erkNX d o)]
       else [.rawDoubles (o.ns * erkNX d o), .rawDoubles (erkNX d o)])
    ++ (if o.sensHess then
        [.rawDoubles (d.nx + erkNX d o + d.nu), .rawDoubles (d.nx + d.nu + o.nhess),
         .rawDoubles (o.ns * (d.nx + d.nu + o.nhess))]
       else if o.sensAdj then
        [.rawDoubles (2 * d.nx + d.nu), .rawDoubles (d.nu + d.nx), .rawDoubles (o.ns * (d.nu + d.nx))]
       else [])

/-- the options with which `ocp_nlp_dynamics_cont_compute_fun_and_adj` calls the integrator:
`sens_forw` and `sens_hess` off, `sens_adj` on (ocp_nlp_dynamics_cont.c:1047-1053). -/
def ErkO.adjointOnly (o : ErkO) : ErkO :=
  { o with sensForw := false, sensHess := false, sensAdj := true }

/-- the options with which `ocp_nlp_dynamics_cont_compute_fun` calls the integrator: all
sensitivities off (ocp_nlp_dynamics_cont.c:975-978). -/
def ErkO.funOnly (o : ErkO) : ErkO :=
  { o with sensForw := false, sensHess := false, sensAdj := false }

/-! ## Implicit Runge-Kutta -/

/-- `sim_irk_opts_calculate_size` (sim_irk_integrator.c:250-268; the lifted integrator's function,
sim_lifted_irk_integrator.c:195-213, and the GNSF one, sim_gnsf.c:264-282, are the same);
`w` = `butcher_tableau_work_calculate_size(NS_MAX)`. -/
def irkOptsSize (sz m w : Nat) : Nat :=
  makeIntMultipleOf 8 (sz + 8 * (m * m) + 8 * m + 8 * m + w) + 8

/-- `sim_irk_opts_assign`, sim_irk_integrator.c:270-292; lifted: sim_lifted_irk_integrator.c:217-239. -/
def irkOptsOps (sz m w : Nat) : List Op :=
  [.struct sz, .align 8, .struct w, .doubles (m * m), .doubles m, .doubles m]

/-- `sim_gnsf_opts_assign`, sim_gnsf.c:285-307: the workspace comes last. -/
def gnsfOptsOps (sz m w : Nat) : List Op :=
  [.struct sz, .align 8, .doubles (m * m), .doubles m, .doubles m, .struct w]

/-- `butcher_tableau_work_calculate_size`, sim_collocation_utils.c:464-477;
`g` = `gauss_legendre_nodes_work_calculate_size(ns)`. -/
def butcherWorkSize (ns g : Nat) : Nat := makeIntMultipleOf 8 (max (8 * (3 * (ns * ns)) + 4 * ns) g)

/-- dimensions of `sim_irk_dims` and the `sim_opts` fields read by the IRK size functions. -/
structure IrkD where
  nx : Nat
  nu : Nat
  nz : Nat
  ny : Nat
  np : Nat
  ns : Nat
  steps : Nat
  sensForwP : Bool
  sensAdj : Bool
  sensHess : Bool
  sensAlg : Bool
  outputZ : Bool
  exactZ : Bool
  cost : Bool
  /-- `cost_type == CONVEX_OVER_NONLINEAR` -/
  conl : Bool

/-- `nK`, sim_irk_integrator.c:640. -/
def IrkD.nK (d : IrkD) : Nat := (d.nx + d.nz) * d.ns

/-- `sim_irk_memory_calculate_size`, sim_irk_integrator.c:390-424. -/
def irkMemorySize (B : Blasfeo) (sz sm : Nat) (d : IrkD) : Nat :=
  makeIntMultipleOf 8
    (sz + 8 * d.nx + 8 * d.nz + 8
      + (if d.cost then sm + B.dmat (d.nx + d.nu) (d.nx + d.nu) + 64 else 0)
      + (if d.sensForwP then B.dmat d.nx d.np + sm + 64 else 0))

/-- `sim_irk_memory_assign`, sim_irk_integrator.c:427-477. -/
def irkMemoryOps (B : Blasfeo) (sz sm : Nat) (d : IrkD) : List Op :=
  [.struct sz, .align 8]
    ++ (if d.cost then [.ptrs sm 1] else [])
    ++ (if d.sensForwP then [.ptrs sm 1, .align 64, .dmat B d.nx d.np] else [])
    ++ [.doubles d.nz, .doubles d.nx]
    ++ (if d.cost then [.align 64, .dmat B (d.nx + d.nu) (d.nx + d.nu)] else [])

/-- `sim_irk_workspace_calculate_size`, sim_irk_integrator.c:626-748. -/
def irkWorkspaceSize (B : Blasfeo) (sz sm sv : Nat) (d : IrkD) : Nat :=
  makeIntMultipleOf 64
    (sz
      + (if d.sensAlg || d.outputZ then 4 * (d.nx + d.nz) + 8 * d.ns else 0)
      + 4 * sv
      + (if d.sensAdj || d.sensHess then 2 * (sv * d.steps) else 0)
      + 2 * sv
      + (if !d.sensHess then 4 * sm else 4 * (sm * d.steps) + sm)
      + (if d.sensForwP then 2 * sm else 0)
      + (if d.cost then 4 * sm + 2 * sv + (if d.conl then 3 * sm else 0) else 0)
      + (if d.cost then
          B.dmat d.ny (d.nx + d.nu) + 2 * B.dmat (d.nx + d.nu) d.ny + 2 * B.dvec d.ny
            + B.dmat d.nx (d.nx + d.nu)
            + (if d.conl then B.dmat (d.nx + d.nu) d.ny + B.dmat d.ny d.ny + B.dmat d.nz d.ny else 0)
         else 0)
      + B.dvec d.nK + B.dvec d.nK + 3 * B.dvec d.nx + B.dvec (d.nx + d.nu) + B.dvec d.nK
      + (if !d.sensHess then
          B.dmat d.nK (d.nx + d.nu) + B.dmat d.nK d.nK + B.dmat d.nK (d.nx + d.nu)
            + B.dmat d.nx (d.nx + d.nu) + 4 * d.nK
         else
          d.steps * B.dmat d.nK (d.nx + d.nu) + d.steps * B.dmat d.nK d.nK
            + d.steps * B.dmat d.nK (d.nx + d.nu) + (d.steps + 1) * B.dmat d.nx (d.nx + d.nu)
            + 4 * (d.steps * d.nK)
            + B.dmat (2 * d.nx + d.nz + d.nu) (2 * d.nx + d.nz + d.nu)
            + 2 * B.dmat (2 * d.nx + d.nz + d.nu) (d.nx + d.nu) + B.dmat (d.nx + d.nu) (d.nx + d.nu))
      + (if d.sensForwP then B.dmat d.nK d.np + B.dmat (d.nx + d.nz) d.np else 0)
      + (if d.sensAdj || d.sensHess then d.steps * B.dvec d.nx + d.steps * B.dvec d.nK else 0)
      + 2 * B.dmat (d.nx + d.nz) d.nx + B.dmat (d.nx + d.nz) d.nu + B.dmat (d.nx + d.nz) d.nz
      + (if d.sensAlg && d.exactZ then
          B.dmat (d.nx + d.nz) (d.nx + d.nz) + B.dmat (d.nx + d.nz) (d.nx + d.nu) else 0)
      + 8) + 64

/-- `sim_irk_workspace_cast`, sim_irk_integrator.c:750-914. -/
def irkWorkspaceOps (B : Blasfeo) (sz sm sv : Nat) (d : IrkD) : List Op :=
  [.align 8, .struct sz]
    ++ (if d.sensAdj || d.sensHess then [.ptrs sv d.steps, .ptrs sv d.steps] else [])
    ++ [.ptrs sv 1, .ptrs sv 1, .ptrs sv 1, .ptrs sv 1]
    ++ (if !d.sensHess then [.ptrs sm 1, .ptrs sm 1, .ptrs sm 1, .ptrs sm 1]
        else [.ptrs sm d.steps, .ptrs sm d.steps, .ptrs sm d.steps, .ptrs sm (d.steps + 1)])
    ++ (if d.sensForwP then [.ptrs sm 1, .ptrs sm 1] else [])
    ++ [.ptrs sv 1, .ptrs sv 1]
    ++ (if d.cost then
        [.ptrs sm 1, .ptrs sm 1, .ptrs sm 1, .ptrs sm 1]
          ++ (if d.conl then [.ptrs sm 1, .ptrs sm 1, .ptrs sm 1] else [])
          ++ [.ptrs sv 1, .ptrs sv 1]
        else [])
    ++ [.align 64]
    ++ (if d.cost then
        [.dmat B d.ny (d.nx + d.nu), .dmat B (d.nx + d.nu) d.ny, .dmat B (d.nx + d.nu) d.ny,
         .dmat B d.nx (d.nx + d.nu)]
          ++ (if d.conl then [.dmat B (d.nx + d.nu) d.ny, .dmat B d.ny d.ny, .dmat B d.nz d.ny]
              else [])
        else [])
    ++ (if !d.sensHess then
        [.dmat B d.nK (d.nx + d.nu), .dmat B d.nK d.nK, .dmat B d.nK (d.nx + d.nu),
         .dmat B d.nx (d.nx + d.nu)]
        else
         loop d.steps (fun _ => [.dmat B d.nK (d.nx + d.nu), .dmat B d.nK d.nK,
           .dmat B d.nK (d.nx + d.nu), .dmat B d.nx (d.nx + d.nu)])
          ++ [.dmat B d.nx (d.nx + d.nu), .dmat B (2 * d.nx + d.nz + d.nu) (2 * d.nx + d.nz + d.nu),
              .dmat B (2 * d.nx + d.nz + d.nu) (d.nx + d.nu),
              .dmat B (2 * d.nx + d.nz + d.nu) (d.nx + d.nu), .dmat B (d.nx + d.nu) (d.nx + d.nu)])
    ++ (if d.sensForwP then [.dmat B d.nK d.np, .dmat B (d.nx + d.nz) d.np] else [])
    ++ [.dmat B (d.nx + d.nz) d.nx, .dmat B (d.nx + d.nz) d.nx, .dmat B (d.nx + d.nz) d.nu,
        .dmat B (d.nx + d.nz) d.nz]
    ++ (if d.sensAlg && d.exactZ then
        [.dmat B (d.nx + d.nz) (d.nx + d.nz), .dmat B (d.nx + d.nz) (d.nx + d.nu)] else [])
    ++ (if d.cost then [.dvec B d.ny, .dvec B d.ny] else [])
    ++ [.dvec B d.nK, .dvec B d.nK, .dvec B d.nx, .dvec B d.nx, .dvec B d.nx, .dvec B (d.nx + d.nu),
        .dvec B d.nK]
    ++ (if d.sensAdj || d.sensHess then
        loop d.steps (fun _ => [.dvec B d.nx, .dvec B d.nK]) else [])
    ++ (if d.sensAlg || d.outputZ then [.doubles d.ns, .ints (d.nx + d.nz)] else [])
    ++ (if !d.sensHess then [.ints d.nK] else [.ints (d.steps * d.nK)])

/-- `ocp_nlp_dynamics_cont_compute_fun_and_adj` on the IRK options (ocp_nlp_dynamics_cont.c:1047-1053;
`sens_forw` does not enter the IRK layout). -/
def IrkD.adjointOnly (d : IrkD) : IrkD := { d with sensHess := false, sensAdj := true }
/-- `ocp_nlp_dynamics_cont_compute_fun` on the IRK options (ocp_nlp_dynamics_cont.c:975-978). -/
def IrkD.funOnly (d : IrkD) : IrkD := { d with sensHess := false, sensAdj := false }

/-! ## Lifted implicit Runge-Kutta -/

/-- dimensions and options read by the lifted integrator's size functions. -/
structure LiftedD where
  nx : Nat
  nu : Nat
  ns : Nat
  steps : Nat

/-- `sim_lifted_irk_memory_calculate_size`, sim_lifted_irk_integrator.c:320-353. -/
def liftedMemorySize (B : Blasfeo) (sz sm sv : Nat) (d : LiftedD) : Nat :=
  makeIntMultipleOf 64
    (sz + sm + 2 * sm + sm * d.steps + sv * d.steps + 2 * sv + B.dmat d.nx (d.nx + d.nu)
      + B.dmat (d.nx * d.ns) (d.nx * d.ns) + B.dmat (d.nx * d.ns) (d.nx + d.nu)
      + d.steps * B.dmat (d.nx * d.ns) (d.nx + d.nu) + d.steps * B.dvec (d.nx * d.ns)
      + B.dvec d.nx + B.dvec d.nu + 8) + 64

/-- `sim_lifted_irk_memory_assign`, sim_lifted_irk_integrator.c:357-427. -/
def liftedMemoryOps (B : Blasfeo) (sz sm sv : Nat) (d : LiftedD) : List Op :=
  [.align 8, .struct sz, .struct sm, .struct sm, .struct sm, .ptrs sm d.steps, .ptrs sv d.steps,
   .struct sv, .struct sv, .align 64, .dmat B d.nx (d.nx + d.nu),
   .dmat B (d.nx * d.ns) (d.nx * d.ns), .dmat B (d.nx * d.ns) (d.nx + d.nu)]
    ++ loop d.steps (fun _ => [.dmat B (d.nx * d.ns) (d.nx + d.nu)])
    ++ loop d.steps (fun _ => [.dvec B (d.nx * d.ns)])
    ++ [.dvec B d.nx, .dvec B d.nu]

/-- `sim_lifted_irk_workspace_calculate_size`, sim_lifted_irk_integrator.c:519-549. -/
def liftedWorkspaceSize (B : Blasfeo) (sz sm sv : Nat) (d : LiftedD) : Nat :=
  makeIntMultipleOf 64
    (sz + 3 * sm + 5 * sv + sv + 2 * B.dmat d.nx d.nx + B.dmat d.nx d.nu + B.dvec (d.nx * d.ns)
      + 4 * B.dvec d.nx + B.dvec (d.nx + d.nu) + 4 * (d.nx * d.ns)) + 64

/-- `sim_lifted_irk_cast_workspace`, sim_lifted_irk_integrator.c:553-615. -/
def liftedWorkspaceOps (B : Blasfeo) (sz sm sv : Nat) (d : LiftedD) : List Op :=
  [.struct sz, .struct sm, .struct sm, .struct sm, .struct sv, .struct sv, .struct sv, .struct sv,
   .struct sv, .struct sv, .align 64, .dmat B d.nx d.nx, .dmat B d.nx d.nx, .dmat B d.nx d.nu,
   .dvec B (d.nx * d.ns), .dvec B d.nx, .dvec B d.nx, .dvec B d.nx, .dvec B d.nx,
   .dvec B (d.nx + d.nu), .ints (d.nx * d.ns)]

/-! ## GNSF integrator -/

/-- dimensions of `sim_gnsf_dims` and the options read by the size functions; `nx2 = nx - nx1` and
`nz2 = nz - nz1` (sim_gnsf.c:399-400) are fields, `nx` and `nz` derived. -/
structure GnsfD where
  nu : Nat
  nx1 : Nat
  nx2 : Nat
  nz1 : Nat
  nz2 : Nat
  nOut : Nat
  ny : Nat
  nuhat : Nat
  ns : Nat
  steps : Nat
  sensAlg : Bool

/-- `nx` -/
def GnsfD.nx (d : GnsfD) : Nat := d.nx1 + d.nx2
/-- `nz` -/
def GnsfD.nz (d : GnsfD) : Nat := d.nz1 + d.nz2
/-- `nvv`, sim_gnsf.c:1523. -/
def GnsfD.nvv (d : GnsfD) : Nat := d.ns * d.nOut
/-- `nyy`, sim_gnsf.c:1524. -/
def GnsfD.nyy (d : GnsfD) : Nat := d.ns * d.ny
/-- `nK1`, sim_gnsf.c:1525. -/
def GnsfD.nK1 (d : GnsfD) : Nat := d.ns * d.nx1
/-- `nK2`, sim_gnsf.c:1526. -/
def GnsfD.nK2 (d : GnsfD) : Nat := d.ns * (d.nx2 + d.nz2)
/-- `nZ1`, sim_gnsf.c:1527. -/
def GnsfD.nZ1 (d : GnsfD) : Nat := d.ns * d.nz1
/-- `nxz2`, sim_gnsf.c:1528. -/
def GnsfD.nxz2 (d : GnsfD) : Nat := d.nx2 + d.nz2

/-- `sim_gnsf_model_calculate_size`, sim_gnsf.c:389-427. -/
def gnsfModelSize (sz : Nat) (d : GnsfD) : Nat :=
  makeIntMultipleOf 64
    (sz + 8 * ((d.nx1 + d.nz1) * (d.nx1 + d.nu + d.nOut + (d.nx1 + d.nz1)))
      + 8 * (d.ny * (2 * d.nx1 + d.nz1)) + 8 * (d.nuhat * d.nu)
      + 8 * ((d.nx2 + d.nz2) * d.nx2) + 8 * (d.nx1 + d.nz1) + 8 * (d.nx2 + d.nz2)
      + 8 * ((d.nx2 + d.nz2) * (d.nx2 + d.nz2)) + 8 * ((d.nx2 + d.nz2) * d.nu)
      + 4 * (d.nx + d.nz) + 8 * (d.nx + d.nz)) + 64

/-- `sim_gnsf_model_assign`, sim_gnsf.c:431-492. -/
def gnsfModelOps (sz : Nat) (d : GnsfD) : List Op :=
  [.align 8, .struct sz, .doubles ((d.nx1 + d.nz1) * d.nx1), .doubles ((d.nx1 + d.nz1) * d.nu),
   .doubles ((d.nx1 + d.nz1) * d.nOut), .doubles ((d.nx1 + d.nz1) * (d.nx1 + d.nz1)),
   .doubles (d.nx1 + d.nz1), .doubles (d.nx2 + d.nz2), .doubles (d.ny * d.nx1),
   .doubles (d.ny * d.nx1), .doubles (d.ny * d.nz1), .doubles (d.nuhat * d.nu),
   .doubles ((d.nx2 + d.nz2) * d.nx2), .doubles ((d.nx2 + d.nz2) * d.nu),
   .doubles ((d.nx2 + d.nz2) * (d.nx2 + d.nz2)), .doubles d.nx, .doubles d.nz, .ints d.nx, .ints d.nz]

/-- `sim_gnsf_memory_calculate_size`, sim_gnsf.c:1186-1287. -/
def gnsfMemorySize (B : Blasfeo) (sz sm : Nat) (d : GnsfD) : Nat :=
  makeIntMultipleOf 64
    (sz + 8 * (d.ns * d.ns) + 8 * (2 * d.ns) + 8 * d.nOut + 4 * d.nK2
      + (if d.sensAlg then 4 * d.nxz2 else 0) + 9 * sm + 2 * sm + 3 * sm
      + B.dmat d.nK1 d.nvv + B.dmat d.nK1 d.nx1 + B.dmat d.nK1 d.nu
      + B.dmat d.nyy d.nvv + B.dmat d.nyy d.nx1 + B.dmat d.nyy d.nu
      + B.dmat d.nZ1 d.nvv + B.dmat d.nZ1 d.nx1 + B.dmat d.nZ1 d.nu
      + B.dmat (d.nx2 + d.nz2) d.nx2 + B.dmat (d.nx2 + d.nz2) d.nu + B.dmat d.nK2 d.nK2
      + B.dmat d.nK2 d.nx2 + B.dmat d.nK2 d.nu + B.dmat d.nx2 (d.nx2 + d.nu) + B.dmat d.nuhat d.nu
      + B.dmat d.nx (d.nx + d.nu) + B.dmat d.nz (d.nx + d.nu)
      + B.dvec d.nZ1 + B.dvec d.nK1 + B.dvec d.nyy + 64 + 16)

/-- `sim_gnsf_memory_assign`, sim_gnsf.c:1291-1424. -/
def gnsfMemoryOps (B : Blasfeo) (sz : Nat) (d : GnsfD) : List Op :=
  [.align 8, .struct sz, .ints d.nK2, .align 8, .doubles (d.ns * d.ns), .doubles d.ns, .doubles d.ns,
   .doubles d.nOut, .align 64,
   .dmat B d.nK1 d.nvv, .dmat B d.nK1 d.nx1, .dmat B d.nK1 d.nu,
   .dmat B d.nyy d.nvv, .dmat B d.nyy d.nx1, .dmat B d.nyy d.nu,
   .dmat B d.nZ1 d.nvv, .dmat B d.nZ1 d.nx1, .dmat B d.nZ1 d.nu,
   .dmat B (d.nx2 + d.nz2) d.nx2, .dmat B (d.nx2 + d.nz2) d.nu, .dmat B d.nK2 d.nK2,
   .dmat B d.nK2 d.nx2, .dmat B d.nK2 d.nu, .dmat B d.nx2 (d.nx2 + d.nu), .dmat B d.nuhat d.nu,
   .dmat B d.nx (d.nx + d.nu), .dmat B d.nz (d.nx + d.nu),
   .dvec B d.nZ1, .dvec B d.nyy, .dvec B d.nK1]

/-- the `pre_size` part of `sim_gnsf_workspace_calculate_size`, sim_gnsf.c:1530-1583. -/
def gnsfPreSize (B : Blasfeo) (szPre : Nat) (d : GnsfD) : Nat :=
  makeIntMultipleOf 8
    (makeIntMultipleOf 64 (makeIntMultipleOf 8 szPre + 8 + 4 * (2 * d.nZ1 + d.nK1)) + 64
      + B.dmat d.nx1 d.nx1 + B.dmat d.nx1 d.nz1 + B.dmat d.nz1 d.nx1 + B.dmat d.nz1 d.nz1
      + B.dmat d.nx1 d.nx1 + B.dmat d.nz1 d.nx1 + B.dmat d.nx1 d.nu + B.dmat d.nz1 d.nu
      + B.dmat d.nx1 d.nOut + B.dmat d.nz1 d.nOut
      + B.dmat d.nK1 d.nx1 + B.dmat d.nZ1 d.nx1 + B.dmat d.nK1 d.nu + B.dmat d.nZ1 d.nu
      + B.dmat d.nK1 d.nvv + B.dmat d.nZ1 d.nvv + B.dmat d.nK1 d.nZ1 + B.dmat d.nZ1 d.nK1
      + B.dmat d.nK1 d.nK1 + B.dmat d.nZ1 d.nZ1 + B.dmat d.nZ1 d.nZ1
      + B.dmat d.nyy d.nZ1 + B.dmat d.nyy d.nx1 + B.dmat d.nyy d.nK1
      + B.dvec d.nK1 + B.dvec d.nZ1) + 8

/-- the remaining part of `sim_gnsf_workspace_calculate_size`, sim_gnsf.c:1585-1660. -/
def gnsfRunSize (B : Blasfeo) (sz sm sv : Nat) (d : GnsfD) : Nat :=
  makeIntMultipleOf 8
    (makeIntMultipleOf 64
      (makeIntMultipleOf 8
        (makeIntMultipleOf 8 sz + 8 + 8 * d.ns + 2 * (sv * d.steps) + sm * d.steps + 4 * d.nvv) + 8
        + d.steps * B.dvec d.nvv + d.steps * B.dvec d.nyy + B.dvec d.nZ1 + 2 * B.dvec d.nK1
        + B.dvec d.nK2 + B.dvec d.nK2 + B.dvec (d.nx * (d.steps + 1)) + B.dvec d.nvv + B.dvec d.nu
        + B.dvec (d.nx + d.nu) + B.dvec (d.nx + d.nu) + B.dvec d.nyy + B.dvec (d.nyy * d.steps)
        + B.dvec d.nK1 + B.dvec d.nZ1 + 2 * B.dvec d.nxz2 + B.dvec d.nuhat + B.dvec d.nz) + 64
      + d.steps * B.dmat d.nK2 (2 * d.nx1 + d.nu + d.nz1) + B.dmat d.nvv d.nvv
      + B.dmat d.nvv (d.nx1 + d.nu) + B.dmat d.nK1 d.nx1 + B.dmat d.nK1 d.nu + B.dmat d.nZ1 d.nx1
      + B.dmat d.nZ1 d.nu + B.dmat d.nK2 d.nK1 + B.dmat d.nK2 d.nx1 + B.dmat d.nK2 d.nvv
      + B.dmat d.nx (d.nx + d.nu) + B.dmat d.nx (d.nx + d.nu) + B.dmat d.nx d.nvv
      + B.dmat d.nx d.nx + B.dmat d.nx d.nu + B.dmat d.nvv (d.ny + d.nuhat)
      + B.dmat d.nz (d.nx + d.nu)) + 8

/-- `sim_gnsf_workspace_calculate_size`, sim_gnsf.c:1503-1668: the larger of the two. -/
def gnsfWorkspaceSize (B : Blasfeo) (sz szPre sm sv : Nat) (d : GnsfD) : Nat :=
  if gnsfRunSize B sz sm sv d > gnsfPreSize B szPre d then gnsfRunSize B sz sm sv d
  else gnsfPreSize B szPre d

/-- `gnsf_cast_pre_workspace`, sim_gnsf.c:535-614. -/
def gnsfPreOps (B : Blasfeo) (szPre : Nat) (d : GnsfD) : List Op :=
  [.align 8, .struct szPre, .ints d.nK1, .ints d.nZ1, .ints d.nZ1, .align 64,
   .dmat B d.nx1 d.nx1, .dmat B d.nx1 d.nz1, .dmat B d.nz1 d.nx1, .dmat B d.nz1 d.nz1,
   .dmat B d.nx1 d.nx1, .dmat B d.nz1 d.nx1, .dmat B d.nx1 d.nu, .dmat B d.nz1 d.nu,
   .dmat B d.nx1 d.nOut, .dmat B d.nz1 d.nOut,
   .dmat B d.nK1 d.nx1, .dmat B d.nZ1 d.nx1, .dmat B d.nK1 d.nu, .dmat B d.nZ1 d.nu,
   .dmat B d.nK1 d.nvv, .dmat B d.nZ1 d.nvv, .dmat B d.nK1 d.nZ1, .dmat B d.nZ1 d.nK1,
   .dmat B d.nK1 d.nK1, .dmat B d.nZ1 d.nZ1, .dmat B d.nZ1 d.nZ1,
   .dmat B d.nyy d.nZ1, .dmat B d.nyy d.nx1, .dmat B d.nyy d.nK1,
   .dvec B d.nK1, .dvec B d.nZ1]

/-- `sim_gnsf_cast_workspace`, sim_gnsf.c:1672-1794. -/
def gnsfRunOps (B : Blasfeo) (sz sm sv : Nat) (d : GnsfD) : List Op :=
  [.struct sz, .align 8, .doubles d.ns, .ints d.nvv, .align 8, .ptrs sm d.steps, .ptrs sv d.steps,
   .ptrs sv d.steps]
    ++ loop d.steps (fun _ => [.dvec B d.nvv, .dvec B d.nyy])
    ++ [.dvec B d.nK2, .dvec B d.nK1, .dvec B d.nK1, .dvec B d.nZ1, .dvec B d.nK2,
        .dvec B ((d.steps + 1) * d.nx), .dvec B d.nvv, .dvec B d.nu, .dvec B (d.nx + d.nu),
        .dvec B (d.nx + d.nu), .dvec B d.nyy, .dvec B (d.nyy * d.steps), .dvec B d.nK1, .dvec B d.nZ1,
        .dvec B d.nxz2, .dvec B d.nxz2, .dvec B d.nuhat, .dvec B d.nz, .align 64]
    ++ loop d.steps (fun _ => [.dmat B d.nK2 (2 * d.nx1 + d.nu + d.nz1)])
    ++ [.dmat B d.nvv (d.nx1 + d.nu), .dmat B d.nvv d.nvv, .dmat B d.nK1 d.nx1, .dmat B d.nK1 d.nu,
        .dmat B d.nZ1 d.nx1, .dmat B d.nZ1 d.nu, .dmat B d.nK2 d.nK1, .dmat B d.nvv (d.ny + d.nuhat),
        .dmat B d.nK2 d.nx1, .dmat B d.nK2 d.nvv, .dmat B d.nx (d.nx + d.nu),
        .dmat B d.nx (d.nx + d.nu), .dmat B d.nx d.nvv, .dmat B d.nx d.nx, .dmat B d.nx d.nu,
        .dmat B d.nz (d.nx + d.nu)]

/-! ## Dynamics modules -/

/-- `ocp_nlp_dynamics_cont_dims_calculate_size`, ocp_nlp_dynamics_cont.c:51-64; `sub` = the
integrator's `dims_calculate_size`. -/
def dynContDimsSize (sz sub : Nat) : Nat := sz + sub + 16
/-- `ocp_nlp_dynamics_cont_dims_assign`, ocp_nlp_dynamics_cont.c:67-86. -/
def dynContDimsOps (sz sub : Nat) : List Op := [.align 8, .struct sz, .align 8, .struct sub]

/-- `ocp_nlp_dynamics_cont_opts_calculate_size`, ocp_nlp_dynamics_cont.c:223-236. -/
def dynContOptsSize (sz sub : Nat) : Nat := sz + sub + 8
/-- `ocp_nlp_dynamics_cont_opts_assign`, ocp_nlp_dynamics_cont.c:240-257. -/
def dynContOptsOps (sz sub : Nat) : List Op := [.struct sz, .align 8, .struct sub]

/-- `ocp_nlp_dynamics_cont_memory_calculate_size`, ocp_nlp_dynamics_cont.c:381-408. -/
def dynContMemorySize (B : Blasfeo) (sz sub nx nu nx1 : Nat) : Nat :=
  makeIntMultipleOf 8 (sz + B.dvec (nu + nx + nx1) + B.dvec nx1 + sub + 64)
/-- `ocp_nlp_dynamics_cont_memory_assign`, ocp_nlp_dynamics_cont.c:412-450. -/
def dynContMemoryOps (B : Blasfeo) (sz sub nx nu nx1 : Nat) : List Op :=
  [.struct sz, .struct sub, .align 64, .dvec B (nu + nx + nx1), .dvec B nx1]

/-- `ocp_nlp_dynamics_cont_workspace_calculate_size`, ocp_nlp_dynamics_cont.c:632-656; `si`, `so`,
`sw`: sizes of the integrator's input, output and workspace. -/
def dynContWorkspaceSize (B : Blasfeo) (sz si so sw nx nu : Nat) : Nat :=
  makeIntMultipleOf 8 (sz + si + so + sw + B.dmat (nu + nx) (nu + nx) + 64)
/-- `ocp_nlp_dynamics_cont_cast_workspace`, ocp_nlp_dynamics_cont.c:660-695.
`sim_in_assign_and_advance` (sim_common.c:147-183) moves the pointer by the layout of `sim_in` itself
(`szIn`, `model`), the other two objects by their calculated size. -/
def dynContWorkspaceOps (B : Blasfeo) (sz szIn model so sw nx nu : Nat) : List Op :=
  [.struct sz] ++ simInOps szIn model nx nu
    ++ [.struct so, .struct sw, .align 64, .dmat B (nu + nx) (nu + nx)]

/-- `ocp_nlp_dynamics_cont_model_calculate_size`, ocp_nlp_dynamics_cont.c:703-721. -/
def dynContModelSize (sz sub : Nat) : Nat := makeIntMultipleOf 8 (sz + sub + 8)
/-- `ocp_nlp_dynamics_cont_model_assign`, ocp_nlp_dynamics_cont.c:725-747. -/
def dynContModelOps (sz sub : Nat) : List Op := [.struct sz, .align 8, .struct sub]

/-- `ocp_nlp_dynamics_disc_memory_calculate_size`, ocp_nlp_dynamics_disc.c:294-314. -/
def dynDiscMemorySize (B : Blasfeo) (sz nx nu nx1 : Nat) : Nat :=
  sz + B.dvec (nu + nx + nx1) + B.dvec nx1 + 64
/-- `ocp_nlp_dynamics_disc_memory_assign`, ocp_nlp_dynamics_disc.c:318-347. -/
def dynDiscMemoryOps (B : Blasfeo) (sz nx nu nx1 : Nat) : List Op :=
  [.struct sz, .align 64, .dvec B (nu + nx + nx1), .dvec B nx1]

/-- `ocp_nlp_dynamics_disc_workspace_calculate_size`, ocp_nlp_dynamics_disc.c:506-530. -/
def dynDiscWorkspaceSize (B : Blasfeo) (sz nx nu npGlobal : Nat) (adj : Bool) : Nat :=
  sz + B.dmat (nu + nx) (nu + nx) + (if adj then B.dvec npGlobal else 0) + 64
/-- `ocp_nlp_dynamics_disc_cast_workspace`, ocp_nlp_dynamics_disc.c:534-565. -/
def dynDiscWorkspaceOps (B : Blasfeo) (sz nx nu npGlobal : Nat) (adj : Bool) : List Op :=
  [.struct sz, .align 64, .dmat B (nu + nx) (nu + nx)] ++ (if adj then [.dvec B npGlobal] else [])

end Acados.Mem
