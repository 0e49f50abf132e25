import Mathlib.Algebra.BigOperators.Group.Finset.Basic
import Verif.Model.MemModules
/-!
# Size and layout of the QP layer

As in `Verif/Model/MemModules.lean`.  HPIPM, qpOASES, DAQP, OSQP, Clarabel and OOQP are external
(empty submodules in /repo); the values of their `*_memsize` functions are parameters.
-/
namespace Acados.Mem

/-- the HPIPM size functions for one fixed `d_ocp_qp_dim`: `d_ocp_qp_dim_memsize`, `d_ocp_qp_memsize`,
`d_ocp_qp_sol_memsize`, `d_ocp_qp_seed_memsize`, `d_ocp_qp_res_memsize`, `d_ocp_qp_res_ws_memsize`;
and the `sizeof` of the structs `ocp_qp_dims`, `ocp_qp_in`, `ocp_qp_out`, `ocp_qp_seed`, `ocp_qp_res`,
`ocp_qp_res_ws`, `qp_info`. -/
structure HpQp where
  dimMem : Nat
  qpMem : Nat
  solMem : Nat
  seedMem : Nat
  resMem : Nat
  resWsMem : Nat
  szDims : Nat
  szIn : Nat
  szOut : Nat
  szSeed : Nat
  szRes : Nat
  szResWs : Nat
  szInfo : Nat

/-- all these numbers are multiples of eight (HPIPM rounds up; C pads structs that contain pointers
or doubles). -/
structure HpQp.OK (h : HpQp) : Prop where
  dimMem : 8 ∣ h.dimMem
  qpMem : 8 ∣ h.qpMem
  solMem : 8 ∣ h.solMem
  seedMem : 8 ∣ h.seedMem
  resMem : 8 ∣ h.resMem
  resWsMem : 8 ∣ h.resWsMem
  szDims : 8 ∣ h.szDims
  szIn : 8 ∣ h.szIn
  szOut : 8 ∣ h.szOut
  szSeed : 8 ∣ h.szSeed
  szRes : 8 ∣ h.szRes
  szResWs : 8 ∣ h.szResWs
  szInfo : 8 ∣ h.szInfo

/-! ## `ocp_qp_common.c` -/

/-- `ocp_qp_dims_calculate_size`, acados/ocp_qp/ocp_qp_common.c:110-120. -/
def qpDimsSize (h : HpQp) : Nat := makeIntMultipleOf 8 (h.szDims + h.dimMem) + 8

/-- `ocp_qp_dims_assign`, ocp_qp_common.c:124-143. -/
def qpDimsOps (h : HpQp) : List Op := [.struct h.szDims, .align 8, .struct h.dimMem]

/-- `ocp_qp_in_calculate_size`, ocp_qp_common.c:175-185. -/
def qpInSize (h : HpQp) : Nat := makeIntMultipleOf 8 (h.szIn + h.qpMem + qpDimsSize h + 2 * 8)

/-- `ocp_qp_in_assign`, ocp_qp_common.c:189-211. -/
def qpInOps (h : HpQp) : List Op :=
  [.align 8, .struct h.szIn, .align 8, .struct h.qpMem, .struct (qpDimsSize h)]

/-- `ocp_qp_out_calculate_size`, ocp_qp_common.c:219-230. -/
def qpOutSize (h : HpQp) : Nat :=
  makeIntMultipleOf 8 (h.szOut + h.solMem + qpDimsSize h + h.szInfo + 2 * 8)

/-- `ocp_qp_out_assign`, ocp_qp_common.c:234-260. -/
def qpOutOps (h : HpQp) : List Op :=
  [.align 8, .struct h.szOut, .align 8, .struct h.solMem, .struct h.szInfo, .align 8,
   .struct (qpDimsSize h)]

/-- `ocp_qp_seed_calculate_size`, ocp_qp_common.c:285-290. -/
def qpSeedSize (h : HpQp) : Nat := h.szSeed + h.seedMem
/-- `ocp_qp_seed_assign`, ocp_qp_common.c:294-307. -/
def qpSeedOps (h : HpQp) : List Op := [.struct h.szSeed, .struct h.seedMem]
/-- `ocp_qp_res_calculate_size`, ocp_qp_common.c:507-512. -/
def qpResSize (h : HpQp) : Nat := h.szRes + h.resMem
/-- `ocp_qp_res_assign`, ocp_qp_common.c:516-529. -/
def qpResOps (h : HpQp) : List Op := [.struct h.szRes, .struct h.resMem]
/-- `ocp_qp_res_workspace_calculate_size`, ocp_qp_common.c:533-538. -/
def qpResWsSize (h : HpQp) : Nat := h.szResWs + h.resWsMem
/-- `ocp_qp_res_workspace_assign`, ocp_qp_common.c:542-555. -/
def qpResWsOps (h : HpQp) : List Op := [.struct h.szResWs, .struct h.resWsMem]

/-! ## Partial condensing -/

/-- `ocp_qp_partial_condensing_dims_calculate_size`, acados/ocp_qp/ocp_qp_partial_condensing.c:57-79. -/
def pcondDimsSize (sz : Nat) (h : HpQp) (N : Nat) : Nat :=
  makeIntMultipleOf 8
    (sz + 2 * h.szDims + 2 * h.dimMem + h.szDims + h.dimMem + 4 * (N + 1) + 2 * 8)

/-- `ocp_qp_partial_condensing_dims_assign`, ocp_qp_partial_condensing.c:83-121. -/
def pcondDimsOps (sz : Nat) (h : HpQp) (N : Nat) : List Op :=
  [.struct sz, .struct h.szDims, .struct h.szDims, .struct h.szDims, .align 8, .struct h.dimMem,
   .struct h.dimMem, .struct h.dimMem, .ints (N + 1), .align 8]

/-- `ocp_qp_partial_condensing_opts_calculate_size`, ocp_qp_partial_condensing.c:163-197.
`szArg`, `argMem`: `d_part_cond_qp_arg`; `szRed`, `redMem`: `d_ocp_qp_reduce_eq_dof_arg`. -/
def pcondOptsSize (sz szArg argMem szRed redMem N : Nat) : Nat :=
  makeIntMultipleOf 8 (sz + 4 * (N + 1) + szArg + argMem + szRed + redMem + 3 * 8)

/-- `ocp_qp_partial_condensing_opts_assign`, ocp_qp_partial_condensing.c:201-239. -/
def pcondOptsOps (sz szArg argMem szRed redMem N : Nat) : List Op :=
  [.struct sz, .align 8, .struct szArg, .struct szRed, .align 8, .struct argMem, .struct redMem,
   .ints (N + 1), .align 8]

/-- `ocp_qp_partial_condensing_memory_calculate_size`, ocp_qp_partial_condensing.c:330-403 (size part);
`p`: sizes for the condensed dimensions, `r`: for the reduced ones. -/
def pcondMemorySize (sz : Nat) (p r : HpQp) (szWs wsMem szRed redMem : Nat) : Nat :=
  makeIntMultipleOf 8
    (sz + qpInSize p + qpOutSize p + qpSeedSize p + qpInSize r + qpOutSize r + qpSeedSize r
      + szWs + wsMem + szRed + redMem + 3 * 8)

/-- `ocp_qp_partial_condensing_memory_assign`, ocp_qp_partial_condensing.c:407-463. -/
def pcondMemoryOps (sz : Nat) (p r : HpQp) (szWs wsMem szRed redMem : Nat) : List Op :=
  [.align 8, .struct sz, .align 8, .struct szWs, .struct szRed, .align 8, .struct wsMem,
   .struct redMem, .struct (qpInSize p), .struct (qpOutSize p), .struct (qpSeedSize p),
   .struct (qpInSize r), .struct (qpOutSize r), .struct (qpSeedSize r)]

/-! ## Dense QP -/

/-- the HPIPM size functions for one fixed `d_dense_qp_dim` and the struct sizes. -/
structure HpDense where
  dimMem : Nat
  qpMem : Nat
  solMem : Nat
  seedMem : Nat
  resMem : Nat
  resWsMem : Nat
  szDims : Nat
  szIn : Nat
  szOut : Nat
  szSeed : Nat
  szRes : Nat
  szResWs : Nat
  szInfo : Nat

/-- multiples of eight, as for `HpQp` -/
structure HpDense.OK (h : HpDense) : Prop where
  dimMem : 8 ∣ h.dimMem
  qpMem : 8 ∣ h.qpMem
  solMem : 8 ∣ h.solMem
  seedMem : 8 ∣ h.seedMem
  resMem : 8 ∣ h.resMem
  resWsMem : 8 ∣ h.resWsMem
  szDims : 8 ∣ h.szDims
  szIn : 8 ∣ h.szIn
  szOut : 8 ∣ h.szOut
  szSeed : 8 ∣ h.szSeed
  szRes : 8 ∣ h.szRes
  szResWs : 8 ∣ h.szResWs
  szInfo : 8 ∣ h.szInfo

/-- `dense_qp_dims_calculate_size`, acados/dense_qp/dense_qp_common.c:91-98. -/
def denseDimsSize (h : HpDense) : Nat := h.szDims + h.dimMem
/-- `dense_qp_dims_assign`, dense_qp_common.c:102-115. -/
def denseDimsOps (h : HpDense) : List Op := [.struct h.szDims, .struct h.dimMem]
/-- `dense_qp_in_calculate_size`, dense_qp_common.c:156-165. -/
def denseInSize (h : HpDense) : Nat := makeIntMultipleOf 8 (h.szIn + h.szDims + h.qpMem + 8)
/-- `dense_qp_in_assign`, dense_qp_common.c:169-192. -/
def denseInOps (h : HpDense) : List Op :=
  [.struct h.szIn, .align 8, .struct h.qpMem, .struct h.szDims]
/-- `dense_qp_out_calculate_size`, dense_qp_common.c:200-209. -/
def denseOutSize (h : HpDense) : Nat := makeIntMultipleOf 8 (h.szOut + h.solMem + h.szInfo + 8)
/-- `dense_qp_out_assign`, dense_qp_common.c:213-230. -/
def denseOutOps (h : HpDense) : List Op :=
  [.struct h.szOut, .align 8, .struct h.solMem, .struct h.szInfo]
/-- `dense_qp_seed_calculate_size`, dense_qp_common.c:254-261. -/
def denseSeedSize (h : HpDense) : Nat := makeIntMultipleOf 8 (h.szSeed + h.seedMem)
/-- `dense_qp_seed_assign`, dense_qp_common.c:265-278 (no slack for the alignment). -/
def denseSeedOps (h : HpDense) : List Op := [.struct h.szSeed, .align 8, .struct h.seedMem]
/-- `dense_qp_res_calculate_size`, dense_qp_common.c:285-292. -/
def denseResSize (h : HpDense) : Nat := makeIntMultipleOf 8 (h.szRes + h.resMem)
/-- `dense_qp_res_assign`, dense_qp_common.c:296-309. -/
def denseResOps (h : HpDense) : List Op := [.struct h.szRes, .align 8, .struct h.resMem]
/-- `dense_qp_res_workspace_calculate_size`, dense_qp_common.c:313-321. -/
def denseResWsSize (h : HpDense) : Nat := makeIntMultipleOf 8 (h.szResWs + h.resWsMem)
/-- `dense_qp_res_workspace_assign`, dense_qp_common.c:325-340. -/
def denseResWsOps (h : HpDense) : List Op := [.struct h.szResWs, .align 8, .struct h.resWsMem]

/-! ## Full condensing -/

/-- `ocp_qp_full_condensing_dims_calculate_size`, acados/ocp_qp/ocp_qp_full_condensing.c:58-76. -/
def fcondDimsSize (sz : Nat) (h : HpQp) (szDense : Nat) : Nat :=
  makeIntMultipleOf 8 (sz + 2 * h.szDims + 2 * h.dimMem + szDense + 1 * 8)

/-- `ocp_qp_full_condensing_dims_assign`, ocp_qp_full_condensing.c:80-110. -/
def fcondDimsOps (sz : Nat) (h : HpQp) (szDense : Nat) : List Op :=
  [.struct sz, .struct h.szDims, .struct h.szDims, .struct szDense, .align 8, .struct h.dimMem,
   .struct h.dimMem]

/-- `ocp_qp_full_condensing_opts_calculate_size`, ocp_qp_full_condensing.c:153-181. -/
def fcondOptsSize (sz szArg argMem szRed redMem : Nat) : Nat :=
  makeIntMultipleOf 8 (sz + szArg + argMem + szRed + redMem + 1 * 8)

/-- `ocp_qp_full_condensing_opts_assign`, ocp_qp_full_condensing.c:185-218. -/
def fcondOptsOps (sz szArg argMem szRed redMem : Nat) : List Op :=
  [.struct sz, .struct szArg, .struct szRed, .align 8, .struct argMem, .struct redMem]

/-- `ocp_qp_full_condensing_memory_calculate_size`, ocp_qp_full_condensing.c:298-329 (not rounded). -/
def fcondMemorySize (sz : Nat) (f : HpDense) (r : HpQp) (szWs wsMem szRed redMem : Nat) : Nat :=
  sz + denseInSize f + denseOutSize f + denseSeedSize f + qpInSize r + qpOutSize r + qpSeedSize r
    + szWs + wsMem + szRed + redMem + 3 * 8

/-- `ocp_qp_full_condensing_memory_assign`, ocp_qp_full_condensing.c:333-388. -/
def fcondMemoryOps (sz : Nat) (f : HpDense) (r : HpQp) (szWs wsMem szRed redMem : Nat) : List Op :=
  [.align 8, .struct sz, .align 8, .struct szWs, .struct szRed, .align 8, .struct wsMem,
   .struct redMem, .struct (denseInSize f), .struct (denseOutSize f), .struct (denseSeedSize f),
   .struct (qpInSize r), .struct (qpOutSize r), .struct (qpSeedSize r)]

/-! ## Condensing plus solver (`ocp_qp_xcond_solver.c`) -/

/-- `ocp_qp_xcond_solver_config_calculate_size`, acados/ocp_qp/ocp_qp_xcond_solver.c:53-63. -/
def xcondConfigSize (sz szSolver szCond : Nat) : Nat := sz + szSolver + szCond
/-- `ocp_qp_xcond_solver_config_assign`, ocp_qp_xcond_solver.c:67-81. -/
def xcondConfigOps (sz szSolver szCond : Nat) : List Op :=
  [.struct sz, .struct szSolver, .struct szCond]
/-- `ocp_qp_xcond_solver_dims_calculate_size`, ocp_qp_xcond_solver.c:89-102. -/
def xcondDimsSize (sz : Nat) (h : HpQp) (cond : Nat) : Nat := sz + qpDimsSize h + cond
/-- `ocp_qp_xcond_solver_dims_assign`, ocp_qp_xcond_solver.c:106-126. -/
def xcondDimsOps (sz : Nat) (h : HpQp) (cond : Nat) : List Op :=
  [.struct sz, .struct (qpDimsSize h), .struct cond]
/-- `ocp_qp_xcond_solver_opts_calculate_size`, ocp_qp_xcond_solver.c:188-208. -/
def xcondOptsSize (sz cond solver : Nat) : Nat := makeIntMultipleOf 8 (sz + cond + solver + 8)
/-- `ocp_qp_xcond_solver_opts_assign`, ocp_qp_xcond_solver.c:212-238 (`align_char_to` is followed by
an explicit check that the next object is 8-byte aligned). -/
def xcondOptsOps (sz cond solver : Nat) : List Op :=
  [.struct sz, .align 8, .struct cond, .alloc 8 true solver]
/-- `ocp_qp_xcond_solver_memory_calculate_size`, ocp_qp_xcond_solver.c:331-353 (not rounded). -/
def xcondMemorySize (sz cond solver : Nat) : Nat := sz + cond + solver + 8
/-- `ocp_qp_xcond_solver_memory_assign`, ocp_qp_xcond_solver.c:357-391. -/
def xcondMemoryOps (sz cond solver : Nat) : List Op :=
  [.struct sz, .align 8, .struct cond, .alloc 8 true solver]
/-- `ocp_qp_xcond_solver_workspace_calculate_size`, ocp_qp_xcond_solver.c:474-494. -/
def xcondWorkspaceSize (sz cond solver : Nat) : Nat := sz + cond + solver
/-- `cast_workspace`, ocp_qp_xcond_solver.c:498-521. -/
def xcondWorkspaceOps (sz cond solver : Nat) : List Op := [.struct sz, .struct cond, .struct solver]

/-! ## QP solver interfaces -/

/-- `ocp_qp_hpipm_opts_calculate_size` (acados/ocp_qp/ocp_qp_hpipm.c:59-72),
`ocp_qp_hpipm_memory_calculate_size` (201-217), `dense_qp_hpipm_opts_calculate_size`
(acados/dense_qp/dense_qp_hpipm.c:53-66), `dense_qp_hpipm_memory_calculate_size` (190-204): the same
sum of own struct, HPIPM struct and HPIPM memory. -/
def hpipmSize (sz szHp mem : Nat) : Nat := makeIntMultipleOf 8 (sz + szHp + mem + 8)
/-- the matching assign functions: ocp_qp_hpipm.c:76-98, 221-248; dense_qp_hpipm.c:70-91, 208-233. -/
def hpipmOps (sz szHp mem : Nat) : List Op := [.struct sz, .struct szHp, .align 8, .struct mem]

/-- `dense_qp_daqp_opts_calculate_size`, acados/dense_qp/dense_qp_daqp.c:66-75. -/
def daqpOptsSize (sz szSet : Nat) : Nat := makeIntMultipleOf 8 (sz + szSet)
/-- `dense_qp_daqp_opts_assign`, dense_qp_daqp.c:79-94. -/
def daqpOptsOps (sz szSet : Nat) : List Op := [.struct sz, .struct szSet]

/-- `daqp_workspace_calculate_size`, dense_qp_daqp.c:174-202 (`c_float` is `double`; `ms = 0`). -/
def daqpWorkSize (sz n m ns : Nat) : Nat :=
  makeIntMultipleOf 8
    (sz + 8 * (n * m) + 8 * (2 * m) + 8 * n + 8 * m + 8 * n + 8 * (2 * (n + ns + 1)) + 8 * n
      + 8 * ((n + ns + 2) * (n + ns + 1) / 2) + 8 * (n + ns + 1) + 8 * (2 * (n + ns + 1))
      + 8 * (4 * m) + 4 * m + 4 * (n + ns + 1))

/-- `daqp_workspace_assign`, dense_qp_daqp.c:237-344. -/
def daqpWorkOps (sz n m ns : Nat) : List Op :=
  [.struct sz, .align 8, .rawDoubles (n * m), .rawDoubles m, .rawDoubles m, .rawDoubles n,
   .rawDoubles m, .rawDoubles n, .rawDoubles (n + ns + 1), .rawDoubles (n + ns + 1), .rawDoubles n,
   .rawDoubles (n + ns + 1), .rawDoubles (n + ns + 1), .rawDoubles (n + ns + 1),
   .rawDoubles ((n + ns + 2) * (n + ns + 1) / 2), .rawDoubles m, .rawDoubles m, .rawDoubles m,
   .rawDoubles m, .ints m, .ints (n + ns + 1)]

/-- `dense_qp_daqp_memory_calculate_size`, dense_qp_daqp.c:205-234; `szW`: `sizeof(DAQPWorkspace)`. -/
def daqpMemorySize (B : Blasfeo) (sz sm sv szW n m ns : Nat) : Nat :=
  makeIntMultipleOf 8
    (sz + 2 * sm + 3 * sv + daqpWorkSize szW n m ns + 8 * (2 * m) + 4 * ns + 8 * (6 * ns) + 64
      + B.dmat n n + B.dmat n m + 2 * B.dvec n + B.dvec m)

/-- `dense_qp_daqp_memory_assign`, dense_qp_daqp.c:347-426: the `int` array `idxs` stands in front of
six `double` arrays. -/
def daqpMemoryOps (B : Blasfeo) (sz sm sv szW n m ns : Nat) : List Op :=
  [.struct sz, .struct sm, .struct sm, .struct sv, .struct sv, .struct sv,
   .alloc 8 true (daqpWorkSize szW n m ns), .alloc 8 true (8 * m), .rawDoubles m, .ints ns,
   .rawDoubles ns, .rawDoubles ns, .rawDoubles ns, .rawDoubles ns, .rawDoubles ns, .rawDoubles ns,
   .align 64, .dmat B n n, .dmat B n m, .dvec B n, .dvec B n, .dvec B m]

/-- `dense_qp_ooqp_memory_calculate_size`, acados/dense_qp/dense_qp_ooqp.c:398-424. -/
def denseOoqpMemorySize (sz nv ne ng : Nat) : Nat :=
  makeIntMultipleOf 8
    (sz + 8 * (nv * nv) + 8 * nv + 2 * nv + 8 * (2 * nv) + 8 * (nv * ne) + 8 * ne + 8 * (nv * ng)
      + 8 * (2 * ng) + 2 * ng)
/-- `dense_qp_ooqp_memory_assign`, dense_qp_ooqp.c:428-476 (`assign_and_advance_char`: one byte each,
as `.bools`). -/
def denseOoqpMemoryOps (sz nv ne ng : Nat) : List Op :=
  [.struct sz, .doubles (nv * nv), .doubles nv, .doubles nv, .doubles nv, .doubles (nv * ne),
   .doubles ne, .doubles (nv * ng), .doubles ng, .doubles ng, .bools nv, .bools nv, .bools ng,
   .bools ng]
/-- `dense_qp_ooqp_workspace_calculate_size`, dense_qp_ooqp.c:511-526. -/
def denseOoqpWorkspaceSize (sz nx my mz : Nat) : Nat := sz + 8 * (3 * nx + my + 3 * mz)
/-- `dense_qp_ooqp_cast_workspace`, dense_qp_ooqp.c:530-549. -/
def denseOoqpWorkspaceOps (sz nx my mz : Nat) : List Op :=
  [.struct sz, .rawDoubles nx, .rawDoubles nx, .rawDoubles nx, .rawDoubles my, .rawDoubles mz,
   .rawDoubles mz, .rawDoubles mz]

/-- dimensions seen by the qpOASES interface: `stacked` are the sizes of the QP with slacks as
variables (`dense_qp_stack_slacks_dims_upperbound`); `qpMem`, `qpbMem` the values of
`QProblem_calculateMemorySize` and `QProblemB_calculateMemorySize`. -/
structure QpoasesD where
  nv : Nat
  ne : Nat
  ng : Nat
  nb : Nat
  ns : Nat
  nvS : Nat
  ngS : Nat
  nbS : Nat
  qpMem : Nat
  qpbMem : Nat
/-- `nv2`, dense_qp_qpoases.c:231-244 -/
def QpoasesD.nv2 (d : QpoasesD) : Nat := if d.ns > 0 then d.nvS else d.nv
/-- `ng2`, dense_qp_qpoases.c:231-244 -/
def QpoasesD.ng2 (d : QpoasesD) : Nat := if d.ns > 0 then d.ngS else d.ng
/-- `nb2`, dense_qp_qpoases.c:231-244 -/
def QpoasesD.nb2 (d : QpoasesD) : Nat := if d.ns > 0 then d.nbS else d.nb

/-- `dense_qp_qpoases_memory_calculate_size`, acados/dense_qp/dense_qp_qpoases.c:218-278. -/
def qpoasesMemorySize (sz : Nat) (st : HpDense) (d : QpoasesD) : Nat :=
  makeIntMultipleOf 8
    (sz + (if d.ns > 0 then denseInSize st else 0)
      + 8 * (d.nv * d.nv) + 8 * (d.nv2 * d.nv2) + 8 * (d.nv2 * d.nv2) + 8 * (d.nv2 * d.ne)
      + 8 * (d.nv * d.ng) + 8 * (d.nv2 * d.ng2) + 8 * d.nv + 8 * d.nv2 + 8 * (2 * d.nv2) + 8 * d.ne
      + 8 * (2 * d.nb2) + 8 * (2 * d.ng) + 8 * (2 * d.ng2) + 4 * d.nb + 4 * d.nb2 + 4 * (d.nb + d.ng)
      + 4 * d.ns + 8 * d.nv2 + 8 * (d.nv2 + d.ng2) + 8 * (6 * d.ns)
      + (if d.ng > 0 ∨ d.ns > 0 then d.qpMem else d.qpbMem))

/-- `dense_qp_qpoases_memory_assign`, dense_qp_qpoases.c:282-375. -/
def qpoasesMemoryOps (sz : Nat) (st : HpDense) (d : QpoasesD) : List Op :=
  [.struct sz] ++ (if d.ns > 0 then [.alloc 8 true (denseInSize st)] else [])
    ++ [.doubles (d.nv * d.nv), .doubles (d.nv2 * d.nv2), .doubles (d.nv2 * d.nv2),
        .doubles (d.nv2 * d.ne), .doubles (d.nv * d.ng), .doubles (d.nv2 * d.ng2), .doubles d.nv,
        .doubles d.nv2, .doubles d.ne, .doubles d.nb2, .doubles d.nb2, .doubles d.nv2,
        .doubles d.nv2, .doubles d.ng, .doubles d.ng, .doubles d.ng2, .doubles d.ng2, .doubles d.ns,
        .doubles d.ns, .doubles d.ns, .doubles d.ns, .doubles d.ns, .doubles d.ns, .doubles d.nv2,
        .doubles (d.nv2 + d.ng2)]
    ++ [.alloc 8 true (if d.ng > 0 ∨ d.ns > 0 then d.qpMem else d.qpbMem)]
    ++ [.ints d.nb, .ints d.nb2, .ints d.ns, .ints (d.nb + d.ng)]

/-- `ocp_qp_ooqp_memory_calculate_size`, acados/ocp_qp/ocp_qp_ooqp.c:913-942. -/
def ooqpMemorySize (sz nx my mz nnzQ nnzA nnzC : Nat) : Nat :=
  makeIntMultipleOf 8
    (sz + 8 * nx + 8 * nnzQ + 4 * (3 * nnzQ) + 8 * (2 * nx) + 2 * nx + 8 * nnzA + 4 * (3 * nnzA)
      + 8 * my + 8 * nnzC + 4 * (3 * nnzC) + 8 * (2 * mz) + 2 * mz)
/-- `ocp_qp_ooqp_memory_assign`, ocp_qp_ooqp.c:946-1012. -/
def ooqpMemoryOps (sz nx my mz nnzQ nnzA nnzC : Nat) : List Op :=
  [.struct sz, .doubles nx, .doubles nnzQ, .doubles nx, .doubles nx, .doubles nnzA, .doubles my,
   .doubles nnzC, .doubles mz, .doubles mz, .ints nnzQ, .ints nnzQ, .ints nnzQ, .ints nnzA,
   .ints nnzA, .ints nnzA, .ints nnzC, .ints nnzC, .ints nnzC, .bools nx, .bools nx, .bools mz,
   .bools mz]
/-- `ocp_qp_ooqp_workspace_calculate_size`, ocp_qp_ooqp.c:1055-1076; `nnz` is the largest of the three
numbers of nonzeros. -/
def ooqpWorkspaceSize (sz nx my mz nnz : Nat) : Nat :=
  sz + 8 * (3 * nx + my + 3 * mz) + 4 * nnz + 8 * nnz
/-- `ocp_qp_ooqp_cast_workspace`, ocp_qp_ooqp.c:1080-1103: an `int` array in front of a `double`
array (the last region, whose end is not computed by the code, is `nnz` doubles long). -/
def ooqpWorkspaceOps (sz nx my mz nnz : Nat) : List Op :=
  [.struct sz, .rawDoubles nx, .rawDoubles nx, .rawDoubles nx, .rawDoubles my, .rawDoubles mz,
   .rawDoubles mz, .rawDoubles mz, .ints nnz, .rawDoubles nnz]

/-- `ocp_qp_qpdunes_workspace_calculate_size`, acados/ocp_qp/ocp_qp_qpdunes.c:547-568. -/
def qpdunesWorkspaceSize (sz nx nu nD : Nat) : Nat :=
  sz + 8 * ((nx + nu) * (nx + nu)) + 8 * (nx * nx) + 8 * (nu * nu) + 8 * (nx * nu) + 8 * (nx + nu)
    + 8 * (nx * (nx + nu)) + 8 * (nx + nu) + 8 * (nD * (nx + nu)) + 8 * (2 * nD) + 8 * (2 * (nx + nu))
/-- `ocp_qp_qpdunes_cast_workspace`, ocp_qp_qpdunes.c:572-594. -/
def qpdunesWorkspaceOps (sz nx nu nD : Nat) : List Op :=
  [.struct sz, .doubles ((nx + nu) * (nx + nu)), .doubles (nx * nx), .doubles (nu * nu),
   .doubles (nx * nu), .doubles (nx + nu), .doubles (nx * (nx + nu)), .doubles (nx + nu),
   .doubles (nD * (nx + nu)), .doubles nD, .doubles nD, .doubles (nx + nu), .doubles (nx + nu)]

/-- `ocp_qp_clarabel_memory_calculate_size`, acados/ocp_qp/ocp_qp_clarabel.c:874-901
(`ClarabelFloat` and `uintptr_t` are 8 bytes). -/
def clarabelMemorySize (sz n m pnnz annz : Nat) : Nat :=
  sz + 8 * annz + 8 * annz + 8 * (n + 1) + 8 * pnnz + 8 * pnnz + 8 * (n + 1) + 8 * n + 8 * m + 8
/-- `ocp_qp_clarabel_memory_assign`, ocp_qp_clarabel.c:906-958. -/
def clarabelMemoryOps (sz n m pnnz annz : Nat) : List Op :=
  [.struct sz, .align 8, .rawDoubles n, .rawDoubles m, .rawDoubles pnnz, .rawDoubles annz,
   .rawDoubles pnnz, .rawDoubles (n + 1), .rawDoubles annz, .rawDoubles (n + 1)]

/-- `sizeof` of the OSQP structs and of `c_int` (`w` bytes: 4, or 8 when OSQP is built with DLONG). -/
structure OsqpSz where
  w : Nat
  work : Nat
  data : Nat
  csc : Nat
  settings : Nat
  scaling : Nat
  polish : Nat
  solution : Nat
  info : Nat
/-- structs with pointer or double members are padded to multiples of eight -/
structure OsqpSz.OK (s : OsqpSz) : Prop where
  work : 8 ∣ s.work
  data : 8 ∣ s.data
  csc : 8 ∣ s.csc
  settings : 8 ∣ s.settings
  scaling : 8 ∣ s.scaling
  polish : 8 ∣ s.polish
  solution : 8 ∣ s.solution
  info : 8 ∣ s.info
/-- an array of `n` values of type `c_int` -/
def OsqpSz.cints (s : OsqpSz) (n : Nat) : Op := .alloc s.w false (s.w * n)

/-- `osqp_workspace_calculate_size`, acados/ocp_qp/ocp_qp_osqp.c:1095-1165. -/
def osqpWorkSize (s : OsqpSz) (n m pnnz annz : Nat) : Nat :=
  s.work + s.data + 2 * s.csc + 8 * n + 8 * (2 * m) + 8 * pnnz + s.w * pnnz + s.w * (n + 1)
    + 8 * annz + s.w * annz + s.w * (n + 1) + 8 * (2 * m) + s.w * m + 8 * n + 8 * m + 8 * (n + m)
    + 8 * n + 8 * m + 8 * m + 8 * m + 8 * n + 8 * n + 8 * m + 8 * n + 8 * n + 8 * n + 8 * m
    + s.settings + s.scaling + 8 * n + 8 * n + 8 * m + 8 * m + 8 * n + 8 * n + 8 * m
    + s.polish + s.w * m + s.w * m + s.w * m + s.w * m + 8 * n + 8 * m + 8 * m
    + s.solution + 8 * n + 8 * m + s.info + 1 * 8

/-- `osqp_workspace_assign`, ocp_qp_osqp.c:1203-1369. -/
def osqpWorkOps (s : OsqpSz) (n m pnnz annz : Nat) : List Op :=
  [.struct s.work, .struct s.data, .struct s.csc, .struct s.csc, .struct s.settings,
   .struct s.scaling, .struct s.polish, .struct s.solution, .struct s.info, .align 8,
   .rawDoubles n, .rawDoubles m, .rawDoubles m, .rawDoubles pnnz, .rawDoubles annz, .rawDoubles m,
   .rawDoubles m, .rawDoubles n, .rawDoubles m, .rawDoubles (n + m), .rawDoubles n, .rawDoubles m,
   .rawDoubles m, .rawDoubles m, .rawDoubles n, .rawDoubles n, .rawDoubles m, .rawDoubles n,
   .rawDoubles n, .rawDoubles n, .rawDoubles m, .rawDoubles n, .rawDoubles n, .rawDoubles m,
   .rawDoubles m, .rawDoubles n, .rawDoubles n, .rawDoubles m, .rawDoubles n, .rawDoubles m,
   .rawDoubles m, .rawDoubles n, .rawDoubles m, s.cints pnnz, s.cints (n + 1), s.cints annz,
   s.cints (n + 1), s.cints m, s.cints m, s.cints m, s.cints m, s.cints m]

/-- `ocp_qp_osqp_memory_calculate_size`, ocp_qp_osqp.c:1168-1199. -/
def osqpMemorySize (sz : Nat) (s : OsqpSz) (n m pnnz annz : Nat) : Nat :=
  sz + 8 * n + 8 * (2 * m) + 8 * pnnz + s.w * pnnz + s.w * (n + 1) + 8 * annz + s.w * annz
    + s.w * (n + 1) + s.data + 2 * s.csc + osqpWorkSize s n m pnnz annz + 1 * 8

/-- `ocp_qp_osqp_memory_assign`, ocp_qp_osqp.c:1486-1568: the index arrays stand in front of
structs. -/
def osqpMemoryOps (sz : Nat) (s : OsqpSz) (n m pnnz annz : Nat) : List Op :=
  [.struct sz, .align 8, .rawDoubles n, .rawDoubles m, .rawDoubles m, .rawDoubles pnnz,
   .rawDoubles annz, s.cints pnnz, s.cints (n + 1), s.cints annz, s.cints (n + 1), .struct s.data,
   .struct s.csc, .struct s.csc, .struct (osqpWorkSize s n m pnnz annz)]

end Acados.Mem
