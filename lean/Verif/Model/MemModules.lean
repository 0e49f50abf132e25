import Verif.Model.MemLoop
/-!
# Size and layout of the cost, constraint and dynamics modules

For each object a pair of definitions: `...Size` is the value returned by the C
`*_calculate_size` function and `...Ops` the sequence of statements of the matching `*_assign` (or
`*_cast_workspace`) function that advance `c_ptr`.  `sz` is `sizeof` of the object's own struct
(a parameter: it depends on the ABI).  `B` are the BLASFEO size functions.
Assignments that do not move `c_ptr` (default values, zeroing) are left out.
-/
namespace Acados.Mem

/-! ## Constraints (bounds, general linear, nonlinear `h`) -/

/-- dimensions of `ocp_nlp_constraints_bgh_dims` used by the size functions,
acados/ocp_nlp/ocp_nlp_constraints_bgh.h:56-90. -/
structure BghD where
  nx : Nat
  nu : Nat
  nz : Nat
  nb : Nat
  ng : Nat
  nh : Nat
  ns : Nat
  nbue : Nat
  nbxe : Nat
  nge : Nat
  nhe : Nat
  npGlobal : Nat

/-- `ocp_nlp_constraints_bgh_model_calculate_size`, ocp_nlp_constraints_bgh.c:286-319. -/
def bghModelSize (B : Blasfeo) (sz : Nat) (d : BghD) : Nat :=
  makeIntMultipleOf 8
    (sz + 4 * d.nb + 4 * d.ns + 4 * (d.nb + d.ng + d.nh) + 4 * (d.nbue + d.nbxe + d.nge + d.nhe)
      + B.dvec (2 * d.nb + 2 * d.ng + 2 * d.nh + 2 * d.ns) + B.dmat (d.nu + d.nx) d.ng + 64 + 8)

/-- `ocp_nlp_constraints_bgh_model_assign`, ocp_nlp_constraints_bgh.c:323-385. -/
def bghModelOps (B : Blasfeo) (sz : Nat) (d : BghD) : List Op :=
  [.struct sz, .align 8, .ints d.nb, .ints d.ns, .ints (d.nb + d.ng + d.nh),
   .ints (d.nbue + d.nbxe + d.nge + d.nhe), .align 64, .dmat B (d.nu + d.nx) d.ng,
   .dvec B (2 * d.nb + 2 * d.ng + 2 * d.nh + 2 * d.ns)]

/-- `ocp_nlp_constraints_bgh_memory_calculate_size`, ocp_nlp_constraints_bgh.c:868-894. -/
def bghMemorySize (B : Blasfeo) (sz : Nat) (d : BghD) : Nat :=
  makeIntMultipleOf 8
    (sz + B.dvec (2 * d.nb + 2 * d.ng + 2 * d.nh + 2 * d.ns) + B.dvec (d.nu + d.nx + 2 * d.ns)
      + B.dvec (d.nb + d.ng + d.nh + d.ns) + 64 + 8)

/-- `ocp_nlp_constraints_bgh_memory_assign`, ocp_nlp_constraints_bgh.c:898-935. -/
def bghMemoryOps (B : Blasfeo) (sz : Nat) (d : BghD) : List Op :=
  [.align 8, .struct sz, .align 64, .dvec B (2 * d.nb + 2 * d.ng + 2 * d.nh + 2 * d.ns),
   .dvec B (d.nu + d.nx + 2 * d.ns), .dvec B (d.nb + d.ng + d.nh + d.ns)]

/-- `ocp_nlp_constraints_bgh_workspace_calculate_size`, ocp_nlp_constraints_bgh.c:1097-1141.
`forw`, `adj`: the options `with_solution_sens_wrt_params_forw` / `_adj`. -/
def bghWorkspaceSize (B : Blasfeo) (sz : Nat) (d : BghD) (forw adj : Bool) : Nat :=
  sz
    + (if forw then B.dmat (d.nx + d.nu) d.npGlobal else 0)
    + (if adj then B.dvec d.npGlobal + B.dvec d.nh else 0)
    + (if d.nz > 0 then B.dmat d.nz d.nh + B.dmat d.nz d.nz + B.dmat d.nz (d.nx + d.nu) else 0)
    + (if d.nh > 0 then B.dmat (d.nu + d.nx) (d.nu + d.nx) + B.dmat (d.nx + d.nu) d.nh
        + B.dvec d.nh else 0)
    + B.dvec (d.nb + d.ng + d.nh + d.ns) + 64

/-- `ocp_nlp_constraints_bgh_cast_workspace`, ocp_nlp_constraints_bgh.c:1145-1208. -/
def bghWorkspaceOps (B : Blasfeo) (sz : Nat) (d : BghD) (forw adj : Bool) : List Op :=
  [.struct sz, .align 64]
    ++ (if forw then [.dmat B (d.nx + d.nu) d.npGlobal] else [])
    ++ (if d.nz > 0 then [.dmat B d.nz d.nh, .dmat B d.nz d.nz, .dmat B d.nz (d.nx + d.nu)] else [])
    ++ (if d.nh > 0 then [.dmat B (d.nu + d.nx) (d.nu + d.nx), .dmat B (d.nx + d.nu) d.nh,
        .dvec B d.nh] else [])
    ++ (if adj then [.dvec B d.npGlobal, .dvec B d.nh] else [])
    ++ [.dvec B (d.nb + d.ng + d.nh + d.ns)]

/-- dimensions of `ocp_nlp_constraints_bgp_dims` used by the size functions,
acados/ocp_nlp/ocp_nlp_constraints_bgp.h:55-88. -/
structure BgpD where
  nx : Nat
  nu : Nat
  nz : Nat
  nb : Nat
  ng : Nat
  nphi : Nat
  ns : Nat
  nr : Nat
  nbue : Nat
  nbxe : Nat
  nge : Nat
  nphie : Nat

/-- `ocp_nlp_constraints_bgp_model_calculate_size`, ocp_nlp_constraints_bgp.c:296-327. -/
def bgpModelSize (B : Blasfeo) (sz : Nat) (d : BgpD) : Nat :=
  makeIntMultipleOf 8
    (sz + 4 * d.nb + 4 * d.ns + 4 * (d.nb + d.ng + d.nphi)
      + 4 * (d.nbue + d.nbxe + d.nge + d.nphie)
      + B.dvec (2 * d.nb + 2 * d.ng + 2 * d.nphi + 2 * d.ns) + B.dmat (d.nu + d.nx) d.ng + 64)

/-- `ocp_nlp_constraints_bgp_model_assign`, ocp_nlp_constraints_bgp.c:331-388. -/
def bgpModelOps (B : Blasfeo) (sz : Nat) (d : BgpD) : List Op :=
  [.struct sz, .align 64, .dmat B (d.nu + d.nx) d.ng,
   .dvec B (2 * d.nb + 2 * d.ng + 2 * d.nphi + 2 * d.ns), .ints d.nb, .ints d.ns,
   .ints (d.nb + d.ng + d.nphi), .ints (d.nbue + d.nbxe + d.nge + d.nphie)]

/-- `ocp_nlp_constraints_bgp_memory_calculate_size`, ocp_nlp_constraints_bgp.c:854-877. -/
def bgpMemorySize (B : Blasfeo) (sz : Nat) (d : BgpD) : Nat :=
  sz + B.dvec (2 * d.nb + 2 * d.ng + 2 * d.nphi + 2 * d.ns) + B.dvec (d.nu + d.nx + 2 * d.ns)
    + B.dvec (d.nb + d.ng + d.nphi + d.ns) + 64

/-- `ocp_nlp_constraints_bgp_memory_assign`, ocp_nlp_constraints_bgp.c:881-915. -/
def bgpMemoryOps (B : Blasfeo) (sz : Nat) (d : BgpD) : List Op :=
  [.struct sz, .align 64, .dvec B (2 * d.nb + 2 * d.ng + 2 * d.nphi + 2 * d.ns),
   .dvec B (d.nu + d.nx + 2 * d.ns), .dvec B (d.nb + d.ng + d.nphi + d.ns)]

/-- `ocp_nlp_constraints_bgp_workspace_calculate_size`, ocp_nlp_constraints_bgp.c:1048-1080. -/
def bgpWorkspaceSize (B : Blasfeo) (sz : Nat) (d : BgpD) : Nat :=
  makeIntMultipleOf 8
    (sz + B.dvec (d.nb + d.ng + d.nphi + d.ns) + B.dmat (d.nx + d.nu) d.nr
      + B.dmat (d.nr * d.nphi) d.nr + B.dmat (d.nx + d.nu) d.nr + B.dmat d.nz d.nphi
      + B.dmat (d.nx + d.nu) d.nphi + 64 + 8)

/-- `ocp_nlp_constraints_bgp_cast_workspace`, ocp_nlp_constraints_bgp.c:1084-1121
(`nv = nu + nx` there, `nx + nu` in the size function). -/
def bgpWorkspaceOps (B : Blasfeo) (sz : Nat) (d : BgpD) : List Op :=
  [.align 8, .struct sz, .align 64, .dmat B (d.nx + d.nu) d.nr, .dmat B (d.nr * d.nphi) d.nr,
   .dmat B (d.nu + d.nx) d.nr, .dmat B d.nz d.nphi, .dmat B (d.nu + d.nx) d.nphi,
   .dvec B (d.nb + d.ng + d.nphi + d.ns)]

/-! ## Cost modules -/

/-- dimensions used by the cost size functions (acados/ocp_nlp/ocp_nlp_cost_ls.h:50-57 and the
same fields of the other cost modules). -/
structure CostD where
  nx : Nat
  nu : Nat
  nz : Nat
  ny : Nat
  ns : Nat
  npGlobal : Nat

/-- `ocp_nlp_cost_ls_model_calculate_size`, ocp_nlp_cost_ls.c:157-182: `Vz` counted as `nz × ny`. -/
def lsModelSize (B : Blasfeo) (sz : Nat) (d : CostD) : Nat :=
  makeIntMultipleOf 8
    (sz + 64 + B.dmat d.ny d.ny + B.dmat (d.nu + d.nx) d.ny + B.dmat d.nz d.ny + B.dvec d.ny
      + 2 * B.dvec (2 * d.ns))

/-- `ocp_nlp_cost_ls_model_assign`, ocp_nlp_cost_ls.c:186-239: `Vz` created as `ny × nz`. -/
def lsModelOps (B : Blasfeo) (sz : Nat) (d : CostD) : List Op :=
  [.struct sz, .align 64, .dmat B d.ny d.ny, .dmat B (d.nu + d.nx) d.ny, .dmat B d.ny d.nz,
   .dvec B d.ny, .dvec B (2 * d.ns), .dvec B (2 * d.ns)]

/-- `ocp_nlp_cost_ls_memory_calculate_size`, ocp_nlp_cost_ls.c:568-592. -/
def lsMemorySize (B : Blasfeo) (sz : Nat) (d : CostD) : Nat :=
  sz + B.dmat (d.nu + d.nx) (d.nu + d.nx) + B.dmat d.ny d.ny + B.dvec d.ny
    + B.dvec (d.nu + d.nx + 2 * d.ns) + B.dvec d.ny + 64

/-- `ocp_nlp_cost_ls_memory_assign`, ocp_nlp_cost_ls.c:596-631. -/
def lsMemoryOps (B : Blasfeo) (sz : Nat) (d : CostD) : List Op :=
  [.struct sz, .align 64, .dmat B (d.nu + d.nx) (d.nu + d.nx), .dmat B d.ny d.ny, .dvec B d.ny,
   .dvec B d.ny, .dvec B (d.nu + d.nx + 2 * d.ns)]

/-- `ocp_nlp_cost_ls_workspace_calculate_size`, ocp_nlp_cost_ls.c:714-741. -/
def lsWorkspaceSize (B : Blasfeo) (sz : Nat) (d : CostD) : Nat :=
  sz + B.dmat (d.nu + d.nx) d.ny + B.dmat (d.nu + d.nx) d.ny + B.dmat (d.nu + d.nx) d.nz
    + B.dvec d.ny + B.dvec (2 * d.ns) + B.dvec d.nz + B.dvec d.ny + 64

/-- `ocp_nlp_cost_ls_cast_workspace`, ocp_nlp_cost_ls.c:745-788. -/
def lsWorkspaceOps (B : Blasfeo) (sz : Nat) (d : CostD) : List Op :=
  [.struct sz, .align 64, .dmat B (d.nu + d.nx) d.ny, .dmat B (d.nu + d.nx) d.ny,
   .dmat B (d.nu + d.nx) d.nz, .dvec B d.ny, .dvec B (2 * d.ns), .dvec B d.nz, .dvec B d.ny]

/-- `ocp_nlp_cost_nls_model_calculate_size`, ocp_nlp_cost_nls.c:143-164. -/
def nlsModelSize (B : Blasfeo) (sz : Nat) (d : CostD) : Nat :=
  sz + 64 + B.dmat d.ny d.ny + B.dvec d.ny + 2 * B.dvec (2 * d.ns)

/-- `ocp_nlp_cost_nls_model_assign`, ocp_nlp_cost_nls.c:168-216. -/
def nlsModelOps (B : Blasfeo) (sz : Nat) (d : CostD) : List Op :=
  [.struct sz, .align 64, .dmat B d.ny d.ny, .dvec B d.ny, .dvec B (2 * d.ns), .dvec B (2 * d.ns)]

/-- `ocp_nlp_cost_nls_memory_calculate_size`, ocp_nlp_cost_nls.c:519-544. -/
def nlsMemorySize (B : Blasfeo) (sz : Nat) (d : CostD) : Nat :=
  sz + B.dmat d.ny d.ny + B.dvec d.ny + B.dmat (d.nu + d.nx) d.ny + B.dvec d.ny
    + B.dvec (d.nu + d.nx + 2 * d.ns) + 64

/-- `ocp_nlp_cost_nls_memory_assign`, ocp_nlp_cost_nls.c:548-584. -/
def nlsMemoryOps (B : Blasfeo) (sz : Nat) (d : CostD) : List Op :=
  [.struct sz, .align 64, .dmat B d.ny d.ny, .dmat B (d.nu + d.nx) d.ny, .dvec B d.ny,
   .dvec B d.ny, .dvec B (d.nu + d.nx + 2 * d.ns)]

/-- `ocp_nlp_cost_nls_workspace_calculate_size`, ocp_nlp_cost_nls.c:694-723. -/
def nlsWorkspaceSize (B : Blasfeo) (sz : Nat) (d : CostD) : Nat :=
  sz + B.dmat (d.nu + d.nx) d.ny + B.dmat (d.nu + d.nx) (d.nu + d.nx) + B.dmat (d.nu + d.nx) d.ny
    + B.dmat d.nz d.ny + B.dvec d.ny + B.dvec (2 * d.ns) + B.dvec d.nz + 64

/-- `ocp_nlp_cost_nls_cast_workspace`, ocp_nlp_cost_nls.c:727-769. -/
def nlsWorkspaceOps (B : Blasfeo) (sz : Nat) (d : CostD) : List Op :=
  [.struct sz, .align 64, .dmat B (d.nu + d.nx) d.ny, .dmat B (d.nu + d.nx) (d.nu + d.nx),
   .dmat B d.nz d.ny, .dmat B (d.nu + d.nx) d.ny, .dvec B d.ny, .dvec B (2 * d.ns), .dvec B d.nz]

/-- `ocp_nlp_cost_external_model_calculate_size`, ocp_nlp_cost_external.c:139-157. -/
def extModelSize (B : Blasfeo) (sz : Nat) (d : CostD) : Nat :=
  sz + 64 + B.dmat (d.nx + d.nu) (d.nx + d.nu) + 2 * B.dvec (2 * d.ns)

/-- `ocp_nlp_cost_external_model_assign`, ocp_nlp_cost_external.c:161-194. -/
def extModelOps (B : Blasfeo) (sz : Nat) (d : CostD) : List Op :=
  [.struct sz, .align 64, .dmat B (d.nx + d.nu) (d.nx + d.nu), .dvec B (2 * d.ns),
   .dvec B (2 * d.ns)]

/-- `ocp_nlp_cost_external_memory_calculate_size`, ocp_nlp_cost_external.c:463-481. -/
def extMemorySize (B : Blasfeo) (sz : Nat) (d : CostD) : Nat :=
  sz + B.dvec (d.nu + d.nx + 2 * d.ns) + 64

/-- `ocp_nlp_cost_external_memory_assign`, ocp_nlp_cost_external.c:485-512. -/
def extMemoryOps (B : Blasfeo) (sz : Nat) (d : CostD) : List Op :=
  [.struct sz, .align 64, .dvec B (d.nu + d.nx + 2 * d.ns)]

/-- `ocp_nlp_cost_external_workspace_calculate_size`, ocp_nlp_cost_external.c:607-641. -/
def extWorkspaceSize (B : Blasfeo) (sz : Nat) (d : CostD) (forw adj : Bool) : Nat :=
  sz + (if forw then B.dmat (d.nu + d.nx) d.npGlobal else 0)
    + (if adj then B.dvec d.npGlobal else 0)
    + B.dmat (d.nu + d.nx) (d.nu + d.nx) + B.dmat d.nz d.nz + B.dmat d.nz (d.nu + d.nx)
    + B.dvec (d.nu + d.nx + d.nz) + B.dvec (2 * d.ns) + 64

/-- `ocp_nlp_cost_external_cast_workspace`, ocp_nlp_cost_external.c:645-694. -/
def extWorkspaceOps (B : Blasfeo) (sz : Nat) (d : CostD) (forw adj : Bool) : List Op :=
  [.struct sz, .align 64]
    ++ (if forw then [.dmat B (d.nu + d.nx) d.npGlobal] else [])
    ++ [.dmat B (d.nu + d.nx) (d.nu + d.nx), .dmat B d.nz d.nz, .dmat B d.nz (d.nu + d.nx),
        .dvec B (d.nu + d.nx + d.nz), .dvec B (2 * d.ns)]
    ++ (if adj then [.dvec B d.npGlobal] else [])

/-- `ocp_nlp_cost_conl_model_calculate_size`, ocp_nlp_cost_conl.c:144-161. -/
def conlModelSize (B : Blasfeo) (sz : Nat) (d : CostD) : Nat :=
  sz + 64 + B.dvec d.ny + 2 * B.dvec (2 * d.ns)

/-- `ocp_nlp_cost_conl_model_assign`, ocp_nlp_cost_conl.c:165-198. -/
def conlModelOps (B : Blasfeo) (sz : Nat) (d : CostD) : List Op :=
  [.struct sz, .align 64, .dvec B d.ny, .dvec B (2 * d.ns), .dvec B (2 * d.ns)]

/-- `ocp_nlp_cost_conl_memory_calculate_size`, ocp_nlp_cost_conl.c:436-457. -/
def conlMemorySize (B : Blasfeo) (sz : Nat) (d : CostD) : Nat :=
  sz + B.dvec (d.nu + d.nx + 2 * d.ns) + 64 + B.dmat d.ny d.ny + B.dvec d.ny

/-- `ocp_nlp_cost_conl_memory_assign`, ocp_nlp_cost_conl.c:461-493. -/
def conlMemoryOps (B : Blasfeo) (sz : Nat) (d : CostD) : List Op :=
  [.struct sz, .align 64, .dmat B d.ny d.ny, .dvec B d.ny, .dvec B (d.nu + d.nx + 2 * d.ns)]

/-- `ocp_nlp_cost_conl_workspace_calculate_size`, ocp_nlp_cost_conl.c:603-629. -/
def conlWorkspaceSize (B : Blasfeo) (sz : Nat) (d : CostD) : Nat :=
  sz + B.dmat d.ny d.ny + B.dmat (d.nu + d.nx) d.ny + B.dmat (d.nu + d.nx) d.ny + B.dmat d.nz d.ny
    + B.dmat (d.nu + d.nx) d.ny + B.dvec d.ny + B.dvec (2 * d.ns) + 64

/-- `ocp_nlp_cost_conl_cast_workspace`, ocp_nlp_cost_conl.c:633-675. -/
def conlWorkspaceOps (B : Blasfeo) (sz : Nat) (d : CostD) : List Op :=
  [.struct sz, .align 64, .dmat B d.ny d.ny, .dmat B (d.nu + d.nx) d.ny,
   .dmat B (d.nu + d.nx) d.ny, .dmat B d.nz d.ny, .dmat B (d.nu + d.nx) d.ny, .dvec B d.ny,
   .dvec B (2 * d.ns)]

end Acados.Mem
