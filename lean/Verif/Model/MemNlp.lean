import Mathlib.Algebra.BigOperators.Group.Finset.Basic
import Verif.Model.MemQp
/-!
# Size and layout of the NLP layer

As in `Verif/Model/MemModules.lean`.  Objects of other modules that are placed by
`c_ptr += X_calculate_size(...)` appear as blocks of that size; that the other module's own assign
function stays inside its block is the statement about that module (`Verif/Props/MemNest.lean` puts the
two together).  `sm`, `sv`: `sizeof(struct blasfeo_dmat)`, `sizeof(struct blasfeo_dvec)`.
-/
namespace Acados.Mem
open Finset

/-- NLP dimensions (`ocp_nlp_dims`), one value per stage. -/
structure NlpD where
  N : Nat
  nx : Nat → Nat
  nu : Nat → Nat
  nz : Nat → Nat
  ni : Nat → Nat
  niNl : Nat → Nat
  ns : Nat → Nat
  nv : Nat → Nat
  np : Nat → Nat
  nb : Nat → Nat
  ng : Nat → Nat
  nGlobalData : Nat
  npGlobal : Nat

/-- `m = m > f[i] ? m : f[i]` for `i = 0..n-1`, from `m`. -/
def maxFrom (m : Nat) (f : Nat → Nat) : Nat → Nat
  | 0 => m
  | n + 1 => max (maxFrom m f n) (f n)

/-- `x_max = 0; for (i = 0; i <= N; i++) x_max = max(x_max, x[i])`, e.g. ocp_nlp_common.c:2180-2186. -/
def maxUpTo (N : Nat) (f : Nat → Nat) : Nat := maxFrom 0 f (N + 1)

/-- a size for every stage of every kind of module: dynamics (stages `0..N-1`), cost and constraints
(stages `0..N`). -/
structure Mods where
  dyn : Nat → Nat
  cost : Nat → Nat
  con : Nat → Nat

/-- all these sizes are multiples of eight -/
structure Mods.OK (m : Mods) : Prop where
  dyn : ∀ i, 8 ∣ m.dyn i
  cost : ∀ i, 8 ∣ m.cost i
  con : ∀ i, 8 ∣ m.con i

/-- sum over all stages -/
def Mods.total (m : Mods) (N : Nat) : Nat :=
  ∑ i ∈ range N, m.dyn i + ∑ i ∈ range (N + 1), m.cost i + ∑ i ∈ range (N + 1), m.con i

/-- the blocks of all stages, dynamics then cost then constraints -/
def Mods.ops (m : Mods) (N : Nat) : List Op :=
  loop N (fun i => [.struct (m.dyn i)]) ++ loop (N + 1) (fun i => [.struct (m.cost i)])
    ++ loop (N + 1) (fun i => [.struct (m.con i)])

/-- largest size over all stages and kinds, starting from `m0`
(`size_tmp = tmp > size_tmp ? tmp : size_tmp`, ocp_nlp_common.c:2233-2262). -/
def Mods.largest (m : Mods) (m0 N : Nat) : Nat :=
  maxFrom (maxFrom (maxFrom m0 m.dyn N) m.cost (N + 1)) m.con (N + 1)

/-! ## `ocp_nlp_common.c` -/

/-- `ocp_nlp_config_calculate_size`, acados/ocp_nlp/ocp_nlp_common.c:61-96. -/
def nlpConfigSize (sz qp reg glob dyn cost con N : Nat) : Nat :=
  sz + qp + qp + reg + glob + 8 * N + N * dyn + 8 * (N + 1) + (N + 1) * cost + 8 * (N + 1)
    + (N + 1) * con

/-- `ocp_nlp_config_assign`, ocp_nlp_common.c:100-157. -/
def nlpConfigOps (sz qp reg glob dyn cost con N : Nat) : List Op :=
  [.struct sz, .struct qp, .struct qp, .struct reg, .struct glob, .struct (8 * N)]
    ++ loop N (fun _ => [.struct dyn]) ++ [.struct (8 * (N + 1))]
    ++ loop (N + 1) (fun _ => [.struct cost]) ++ [.struct (8 * (N + 1))]
    ++ loop (N + 1) (fun _ => [.struct con])

/-- `ocp_nlp_reg_dims_calculate_size`, acados/ocp_nlp/ocp_nlp_reg_common.c:66-73 (not rounded). -/
def regDimsSize (sz N : Nat) : Nat := sz + 4 * (5 * (N + 1))
/-- `ocp_nlp_reg_dims_assign`, ocp_nlp_reg_common.c:77-105. -/
def regDimsOps (sz N : Nat) : List Op :=
  [.struct sz, .ints (N + 1), .ints (N + 1), .ints (N + 1), .ints (N + 1), .ints (N + 1)]

/-- `ocp_nlp_qpscaling_dims_calculate_size`, acados/ocp_nlp/ocp_nlp_qpscaling.c:54-64. -/
def qpscalDimsSize (sz : Nat) (h : HpQp) : Nat := makeIntMultipleOf 8 (sz + h.szDims + h.dimMem + 8)
/-- `ocp_nlp_qpscaling_dims_assign`, ocp_nlp_qpscaling.c:68-89. -/
def qpscalDimsOps (sz : Nat) (h : HpQp) : List Op :=
  [.struct sz, .struct h.szDims, .align 8, .struct h.dimMem]

/-- `ocp_nlp_dims_calculate_size_self`, ocp_nlp_common.c:165-200; `szReg`: `sizeof(ocp_nlp_reg_dims)`,
`szScal`: `sizeof(ocp_nlp_qpscaling_dims)`. -/
def nlpDimsSelfSize (sz szReg szScal : Nat) (h : HpQp) (N : Nat) : Nat :=
  makeIntMultipleOf 8
    (sz + 4 * (10 * (N + 1)) + 8 * N + 8 * (N + 1) + 8 * (N + 1) + regDimsSize szReg N
      + qpscalDimsSize szScal h + qpscalDimsSize szScal h + szReg + 8 + 8)

/-- `ocp_nlp_dims_assign_self`, ocp_nlp_common.c:235-336: the regularization dimensions are not
followed by an alignment step. -/
def nlpDimsSelfOps (sz szReg szScal : Nat) (h : HpQp) (N : Nat) : List Op :=
  [.align 8, .struct sz, .struct (8 * N), .struct (8 * (N + 1)), .struct (8 * (N + 1)),
   .ints (N + 1), .ints (N + 1), .ints (N + 1), .ints (N + 1), .ints (N + 1), .ints (N + 1),
   .ints (N + 1), .ints (N + 1), .ints (N + 1), .ints (N + 1), .align 8,
   .struct (regDimsSize szReg N), .struct (qpscalDimsSize szScal h), .struct (qpscalDimsSize szScal h)]

/-- `ocp_nlp_dims_calculate_size`, ocp_nlp_common.c:203-231. -/
def nlpDimsSize (self : Nat) (m : Mods) (qp rqp N : Nat) : Nat := self + m.total N + qp + rqp
/-- `ocp_nlp_dims_assign`, ocp_nlp_common.c:341-386. -/
def nlpDimsOps (self : Nat) (m : Mods) (qp rqp N : Nat) : List Op :=
  [.struct self] ++ m.ops N ++ [.struct qp, .struct rqp]

/-- `ocp_nlp_in_calculate_size`, ocp_nlp_common.c:778-835. -/
def nlpInSize (B : Blasfeo) (sz sv : Nat) (d : NlpD) (m : Mods) : Nat :=
  makeIntMultipleOf 8
    (sz + 8 * d.N + ∑ i ∈ range (d.N + 1), 8 * d.np i + 8 * d.nGlobalData + 8 * (d.N + 1) + 8 * d.N
      + 8 * (d.N + 1) + 8 * (d.N + 1) + sv * (d.N + 1) + ∑ i ∈ range (d.N + 1), B.dvec (2 * d.ni i)
      + m.total d.N + 5 * 8 + 64)

/-- `ocp_nlp_in_assign`, ocp_nlp_common.c:839-941 (the asserts behind the modules hold because the
model sizes are multiples of eight). -/
def nlpInOps (B : Blasfeo) (sz sv : Nat) (d : NlpD) (m : Mods) : List Op :=
  [.align 8, .struct sz, .struct (8 * d.N), .struct (8 * (d.N + 1)), .struct (8 * (d.N + 1)), .align 8,
   .ptrs sv (d.N + 1), .align 8]
    ++ m.ops d.N ++ [.doubles d.N, .ptrs 8 (d.N + 1), .align 8]
    ++ loop (d.N + 1) (fun i => [.doubles (d.np i)]) ++ [.doubles d.nGlobalData, .align 64]
    ++ loop (d.N + 1) (fun i => [.dvec B (2 * d.ni i)]) ++ [.align 8]

/-- `ocp_nlp_out_calculate_size`, ocp_nlp_common.c:949-982. -/
def nlpOutSize (B : Blasfeo) (sz sv : Nat) (d : NlpD) : Nat :=
  makeIntMultipleOf 8
    (sz + 3 * (sv * (d.N + 1)) + sv * d.N
      + ∑ i ∈ range d.N, (B.dvec (d.nv i) + B.dvec (d.nz i) + B.dvec (2 * d.ni i) + B.dvec (d.nx (i + 1)))
      + B.dvec (d.nv d.N) + B.dvec (d.nz d.N) + B.dvec (2 * d.ni d.N) + 8 + 8 + 64)

/-- `ocp_nlp_out_assign`, ocp_nlp_common.c:986-1058. -/
def nlpOutOps (B : Blasfeo) (sz sv : Nat) (d : NlpD) : List Op :=
  [.align 8, .struct sz, .align 8, .ptrs sv (d.N + 1), .ptrs sv (d.N + 1), .ptrs sv d.N,
   .ptrs sv (d.N + 1), .align 64]
    ++ loop (d.N + 1) (fun i => [.dvec B (d.nv i)]) ++ loop (d.N + 1) (fun i => [.dvec B (d.nz i)])
    ++ loop d.N (fun i => [.dvec B (d.nx (i + 1))]) ++ loop (d.N + 1) (fun i => [.dvec B (2 * d.ni i)])

/-- `ocp_nlp_opts_calculate_size`, ocp_nlp_common.c:1065-1110 (not rounded). -/
def nlpOptsSize (sz qp reg scal glob : Nat) (m : Mods) (N : Nat) : Nat :=
  sz + qp + reg + scal + glob + 8 * N + 8 * (N + 1) + 8 * (N + 1) + m.total N + 2 * 8

/-- `ocp_nlp_opts_assign`, ocp_nlp_common.c:1114-1180. -/
def nlpOptsOps (sz qp reg scal glob : Nat) (m : Mods) (N : Nat) : List Op :=
  [.align 8, .struct sz, .struct (8 * N), .struct (8 * (N + 1)), .struct (8 * (N + 1)), .align 8,
   .struct qp, .struct reg, .struct scal, .struct glob] ++ m.ops N

/-- `ocp_nlp_res_calculate_size`, ocp_nlp_common.c:3580-3612. -/
def nlpResSize (B : Blasfeo) (sz sv : Nat) (d : NlpD) : Nat :=
  makeIntMultipleOf 8
    (sz + 3 * (sv * (d.N + 1)) + sv * d.N
      + ∑ i ∈ range d.N, (B.dvec (d.nv i) + B.dvec (d.nx (i + 1)) + 2 * B.dvec (2 * d.ni i))
      + B.dvec (d.nv d.N) + 2 * B.dvec (2 * d.ni d.N) + B.dvec d.N + 8 + 8 + 64)

/-- `ocp_nlp_res_assign`, ocp_nlp_common.c:3615-3672. -/
def nlpResOps (B : Blasfeo) (sz sv : Nat) (d : NlpD) : List Op :=
  [.align 8, .struct sz, .align 8, .ptrs sv (d.N + 1), .ptrs sv d.N, .ptrs sv (d.N + 1),
   .ptrs sv (d.N + 1), .align 64]
    ++ loop (d.N + 1) (fun i => [.dvec B (d.nv i)]) ++ loop d.N (fun i => [.dvec B (d.nx (i + 1))])
    ++ loop (d.N + 1) (fun i => [.dvec B (2 * d.ni i)])
    ++ loop (d.N + 1) (fun i => [.dvec B (2 * d.ni i)]) ++ [.dvec B d.N]

/-- options that change the size of the NLP memory, and the sizes of its sub-objects -/
structure NlpMemO where
  anderson : Bool
  storeIterates : Bool
  sensForw : Bool
  logPrimal : Bool
  logDual : Bool
  maxIter : Nat
  qpIn : Nat
  qpOut : Nat
  qpMem : Nat
  reg : Nat
  scal : Nat
  glob : Nat
  nlpOut : Nat
  res : Nat
  szTimings : Nat

/-- the sub-object sizes are multiples of eight -/
structure NlpMemO.OK (o : NlpMemO) : Prop where
  qpIn : 8 ∣ o.qpIn
  qpOut : 8 ∣ o.qpOut
  qpMem : 8 ∣ o.qpMem
  reg : 8 ∣ o.reg
  scal : 8 ∣ o.scal
  glob : 8 ∣ o.glob
  nlpOut : 8 ∣ o.nlpOut
  res : 8 ∣ o.res
  szTimings : 8 ∣ o.szTimings

/-- `ocp_nlp_memory_calculate_size`, ocp_nlp_common.c:1733-1873. -/
def nlpMemorySize (B : Blasfeo) (sz sm sv : Nat) (d : NlpD) (o : NlpMemO) (m : Mods) : Nat :=
  makeIntMultipleOf 8
    (sz + o.qpIn + o.qpOut + (if o.anderson then 2 * o.qpOut else 0) + o.qpMem + o.reg + o.scal + o.glob
      + 8 * d.N + 8 * (d.N + 1) + 8 * (d.N + 1) + m.total d.N
      + (if o.storeIterates then 8 * (o.maxIter + 1) + (o.maxIter + 1) * o.nlpOut else 0)
      + (if o.sensForw then 2 * (sm * (d.N + 1)) + sm * d.N
          + ∑ i ∈ range (d.N + 1), (B.dmat (d.nv i) d.npGlobal + B.dmat (d.niNl i) d.npGlobal)
          + ∑ i ∈ range d.N, B.dmat (d.nx (i + 1)) d.npGlobal else 0)
      + o.res + o.szTimings + (d.N + 1)
      + (if o.logPrimal then 8 * o.maxIter else 0) + (if o.logDual then 8 * o.maxIter else 0)
      + sm * (d.N + 1) + 6 * (sv * (d.N + 1)) + sv * d.N
      + ∑ i ∈ range d.N, (B.dmat (d.nu i + d.nx i) (d.nz i) + B.dvec (d.nz i) + 2 * B.dvec (d.nv i)
          + B.dvec (d.nu i + d.nx i) + B.dvec (d.nx (i + 1)) + B.dvec (2 * d.ni i)
          + B.dvec (d.nx i + d.nz i))
      + B.dmat (d.nu d.N + d.nx d.N) (d.nz d.N) + B.dvec (d.nz d.N) + 2 * B.dvec (d.nv d.N)
      + B.dvec (d.nu d.N + d.nx d.N) + B.dvec (2 * d.ni d.N) + B.dvec (d.nx d.N + d.nz d.N)
      + B.dvec d.npGlobal + 8 + 8 + 8 + 64)

/-- `ocp_nlp_memory_assign`, ocp_nlp_common.c:1877-2125. -/
def nlpMemoryOps (B : Blasfeo) (sz sm sv : Nat) (d : NlpD) (o : NlpMemO) (m : Mods) : List Op :=
  [.align 8, .struct sz, .struct (8 * d.N), .struct (8 * (d.N + 1)), .struct (8 * (d.N + 1))]
    ++ (if o.storeIterates then [.struct (8 * (o.maxIter + 1))] else [])
    ++ [.align 8, .struct o.qpIn, .struct o.qpOut]
    ++ (if o.anderson then [.struct o.qpOut, .struct o.qpOut] else [])
    ++ [.struct o.qpMem, .struct o.reg, .struct o.glob, .struct o.scal] ++ m.ops d.N
    ++ (if o.storeIterates then loop (o.maxIter + 1) (fun _ => [.struct o.nlpOut]) else [])
    ++ [.struct o.res, .struct o.szTimings, .align 8]
    ++ (if o.sensForw then [.ptrs sm (d.N + 1), .ptrs sm (d.N + 1), .ptrs sm d.N] else [])
    ++ [.ptrs sm (d.N + 1), .ptrs sv (d.N + 1), .ptrs sv (d.N + 1), .ptrs sv (d.N + 1),
        .ptrs sv (d.N + 1), .ptrs sv d.N, .ptrs sv (d.N + 1), .ptrs sv (d.N + 1)]
    ++ (if o.logPrimal then [.rawDoubles o.maxIter] else [])
    ++ (if o.logDual then [.rawDoubles o.maxIter] else [])
    ++ [.bools (d.N + 1), .align 64]
    ++ (if o.sensForw then
          loop (d.N + 1) (fun i => [.dmat B (d.nv i) d.npGlobal, .dmat B (d.niNl i) d.npGlobal])
            ++ loop d.N (fun i => [.dmat B (d.nx (i + 1)) d.npGlobal]) else [])
    ++ loop (d.N + 1) (fun i => [.dmat B (d.nu i + d.nx i) (d.nz i)])
    ++ loop (d.N + 1) (fun i => [.dvec B (d.nz i)]) ++ loop (d.N + 1) (fun i => [.dvec B (d.nv i)])
    ++ loop (d.N + 1) (fun i => [.dvec B (2 * d.ni i)]) ++ loop (d.N + 1) (fun i => [.dvec B (d.nv i)])
    ++ loop d.N (fun i => [.dvec B (d.nx (i + 1))])
    ++ loop (d.N + 1) (fun i => [.dvec B (d.nu i + d.nx i)])
    ++ loop (d.N + 1) (fun i => [.dvec B (d.nx i + d.nz i)]) ++ [.dvec B d.npGlobal]

/-- options and sub-object sizes of the NLP workspace: `reuse` is `opts->reuse_workspace` in a build
without OpenMP (with OpenMP the code takes the other branch); `ext` are the external function
workspace requirements. -/
structure NlpWorkO where
  extQpRes : Bool
  reuse : Bool
  nlpOut : Nat
  qpOut : Nat
  qpSeed : Nat
  qpRes : Nat
  qpResWs : Nat
  qpWork : Nat

/-- the sub-object sizes are multiples of eight -/
structure NlpWorkO.OK (o : NlpWorkO) : Prop where
  nlpOut : 8 ∣ o.nlpOut
  qpOut : 8 ∣ o.qpOut
  qpSeed : 8 ∣ o.qpSeed
  qpRes : 8 ∣ o.qpRes
  qpResWs : 8 ∣ o.qpResWs
  qpWork : 8 ∣ o.qpWork

/-- `ocp_nlp_workspace_calculate_size`, ocp_nlp_common.c:2133-2357. -/
def nlpWorkSize (B : Blasfeo) (sz : Nat) (d : NlpD) (o : NlpWorkO) (m ext : Mods) : Nat :=
  sz + o.nlpOut + o.nlpOut + o.qpOut + o.qpSeed
    + (if o.extQpRes then o.qpRes + o.qpResWs else 0)
    + B.dvec (maxUpTo d.N d.nx) + B.dvec (maxUpTo d.N d.nv) + B.dvec (2 * maxUpTo d.N d.ni)
    + B.dvec d.npGlobal + 8 * (d.N + 1) + 8 * d.N + 8 * (d.N + 1) + 8 * maxUpTo d.N d.nv
    + (if o.reuse then m.largest o.qpWork d.N else o.qpWork + m.total d.N)
    + 4 * (maxUpTo d.N d.ni + maxUpTo d.N d.ns) + 64
    + (if o.reuse then ext.largest 0 d.N else ext.total d.N) + 8 + 64

/-- `ocp_nlp_workspace_assign`, ocp_nlp_common.c:2361-2608.  With `reuse` all modules get the same
start address and the pointer moves by the largest size: one block.  In the other branch the external
function blocks come in the order constraints, cost, dynamics. -/
def nlpWorkOps (B : Blasfeo) (sz : Nat) (d : NlpD) (o : NlpWorkO) (m ext : Mods) : List Op :=
  [.struct sz, .struct (8 * d.N), .struct (8 * (d.N + 1)), .struct (8 * (d.N + 1)), .align 8,
   .struct o.nlpOut, .struct o.qpOut, .struct o.nlpOut, .struct o.qpSeed]
    ++ (if o.extQpRes then [.struct o.qpRes, .struct o.qpResWs] else [])
    ++ [.doubles (maxUpTo d.N d.nv), .ints (maxUpTo d.N d.ni + maxUpTo d.N d.ns), .align 64,
        .dvec B (maxUpTo d.N d.nv), .dvec B (2 * maxUpTo d.N d.ni), .dvec B (maxUpTo d.N d.nx),
        .dvec B d.npGlobal]
    ++ (if o.reuse then [.struct (m.largest o.qpWork d.N)] else [.struct o.qpWork] ++ m.ops d.N)
    ++ [.align 64]
    ++ (if o.reuse then [.struct (ext.largest 0 d.N)]
        else loop (d.N + 1) (fun i => [.struct (ext.con i)])
          ++ loop (d.N + 1) (fun i => [.struct (ext.cost i)])
          ++ loop d.N (fun i => [.struct (ext.dyn i)]))

/-! ## Regularization -/

/-- `ocp_nlp_reg_mirror_memory_calculate_size`, acados/ocp_nlp/ocp_nlp_reg_mirror.c:119-143, and
`ocp_nlp_reg_project_memory_calculate_size`, ocp_nlp_reg_project.c:119-143; `M`: largest `nu + nx`. -/
def regMirrorSize (sz M N : Nat) : Nat := sz + 8 * (M * M) + 8 * (M * M) + 8 * (2 * M) + 8 * (N + 1)
/-- `ocp_nlp_reg_mirror_memory_assign`, ocp_nlp_reg_mirror.c:147-185, and
`ocp_nlp_reg_project_memory_assign`, ocp_nlp_reg_project.c:147-185. -/
def regMirrorOps (sz M N : Nat) : List Op :=
  [.struct sz, .rawDoubles (M * M), .rawDoubles (M * M), .rawDoubles M, .rawDoubles M,
   .struct (8 * (N + 1))]
/-- `ocp_nlp_reg_glm_memory_calculate_size`, acados/ocp_nlp/ocp_nlp_reg_glm.c:99-120. -/
def regGlmSize (sz N : Nat) : Nat := sz + 8 * (N + 1)
/-- `ocp_nlp_reg_glm_memory_assign`, ocp_nlp_reg_glm.c:124-150. -/
def regGlmOps (sz N : Nat) : List Op := [.struct sz, .struct (8 * (N + 1))]
/-- `ocp_nlp_reg_project_reduc_hess_memory_calculate_size`,
acados/ocp_nlp/ocp_nlp_reg_project_reduc_hess.c:120-158. -/
def regReducSize (B : Blasfeo) (sz M nxM nuM N : Nat) : Nat :=
  sz + 8 * (M * M) + 8 * (M * M) + 8 * (2 * M) + 8 * (N + 1) + 8 * N + 64 + B.dmat M M + B.dmat M M
    + B.dmat M M + B.dmat nxM nuM + B.dmat nxM nxM + B.dmat M nxM
/-- `ocp_nlp_reg_project_reduc_hess_memory_assign`, ocp_nlp_reg_project_reduc_hess.c:162-215. -/
def regReducOps (B : Blasfeo) (sz M nxM nuM N : Nat) : List Op :=
  [.struct sz, .rawDoubles (M * M), .rawDoubles (M * M), .rawDoubles M, .rawDoubles M,
   .struct (8 * (N + 1)), .struct (8 * N), .align 64, .dmat B M M, .dmat B M M, .dmat B M M,
   .dmat B nxM nuM, .dmat B nxM nxM, .dmat B M nxM]
/-- `ocp_nlp_reg_convexify_memory_calculate_size`, acados/ocp_nlp/ocp_nlp_reg_convexify.c:108-179. -/
def regConvexifySize (B : Blasfeo) (sz sm M nxM nuM nbgM : Nat) (d : NlpD) : Nat :=
  sz + 8 * (nuM * nuM) + 8 * (M * M) + 8 * (2 * M) + 8 * (M * M) + sm * (d.N + 1) + 64
    + 3 * B.dmat nxM nxM + B.dmat M nxM + B.dmat nuM nuM + B.dmat nxM nuM + B.dvec M + B.dvec nbgM
    + ∑ i ∈ range (d.N + 1), 2 * B.dmat (d.nu i + d.nx i + 1) (d.nu i + d.nx i) + B.dmat M M
    + 8 * (2 * (d.N + 1) + d.N) + 8 * (3 * (d.N + 1) + 2 * d.N) + 8 * (d.N + 1)
/-- `ocp_nlp_reg_convexify_assign_memory`, ocp_nlp_reg_convexify.c:183-288. -/
def regConvexifyOps (B : Blasfeo) (sz sm M nxM nuM nbgM : Nat) (d : NlpD) : List Op :=
  [.struct sz, .rawDoubles (nuM * nuM), .rawDoubles (M * M), .rawDoubles M, .rawDoubles M,
   .rawDoubles (M * M), .struct (sm * (d.N + 1)), .struct (8 * (d.N + 1)), .struct (8 * d.N),
   .struct (8 * (d.N + 1)), .struct (8 * (d.N + 1)), .struct (8 * d.N), .struct (8 * (d.N + 1)),
   .struct (8 * d.N), .struct (8 * (d.N + 1)), .struct (8 * (d.N + 1)), .align 64, .dmat B nxM nxM,
   .dmat B nxM nxM, .dmat B M nxM, .dmat B nuM nuM, .dmat B nxM nxM, .dmat B nxM nuM]
    ++ loop (d.N + 1) (fun i => [.dmat B (d.nu i + d.nx i + 1) (d.nu i + d.nx i)])
    ++ [.dmat B M M, .dvec B M, .dvec B nbgM]

/-! ## QP scaling, globalization -/

/-- `ocp_nlp_qpscaling_memory_calculate_size`, acados/ocp_nlp/ocp_nlp_qpscaling.c:164-194; `obj`,
`con`: objective / constraint scaling switched on; `ng`: of the QP. -/
def qpscalMemorySize (B : Blasfeo) (sz sv qpIn qpOut : Nat) (obj con : Bool) (N : Nat)
    (ng : Nat → Nat) : Nat :=
  sz + 8 + (if obj || con then qpIn + qpOut else 0)
    + (if con then 32 + sv * (N + 1) + ∑ i ∈ range (N + 1), B.dvec (ng i) else 0)
/-- `ocp_nlp_qpscaling_memory_assign`, ocp_nlp_qpscaling.c:198-239. -/
def qpscalMemoryOps (B : Blasfeo) (sz sv qpIn qpOut : Nat) (obj con : Bool) (N : Nat)
    (ng : Nat → Nat) : List Op :=
  [.struct sz, .align 8] ++ (if obj || con then [.struct qpIn, .struct qpOut] else [])
    ++ (if con then [.ptrs sv (N + 1), .align 32] ++ loop (N + 1) (fun i => [.dvec B (ng i)]) else [])

/-- memory of the three globalization modules: ocp_nlp_globalization_fixed_step.c:128-136,
ocp_nlp_globalization_merit_backtracking.c:117-125, ocp_nlp_globalization_funnel.c:198-206. -/
def globMemorySize (sz : Nat) : Nat := sz + 2 * 8
/-- the matching assign functions: ocp_nlp_globalization_fixed_step.c:138-152,
ocp_nlp_globalization_merit_backtracking.c:127-141, ocp_nlp_globalization_funnel.c:208-222. -/
def globMemoryOps (sz : Nat) : List Op := [.align 8, .struct sz, .align 8]

/-! ## NLP solvers -/

/-- `ocp_nlp_sqp_memory_calculate_size`, acados/ocp_nlp/ocp_nlp_sqp.c:207-234. -/
def sqpMemorySize (sz nlp : Nat) (extQpRes : Bool) (maxIter : Nat) : Nat :=
  makeIntMultipleOf 8 (sz + nlp + 8 * ((if extQpRes then 7 + 4 else 7) * (maxIter + 1)) + 3 * 8)
/-- `ocp_nlp_sqp_memory_assign`, ocp_nlp_sqp.c:236-283. -/
def sqpMemoryOps (sz nlp : Nat) (extQpRes : Bool) (maxIter : Nat) : List Op :=
  [.align 8, .struct sz, .align 8, .struct nlp,
   .rawDoubles ((maxIter + 1) * (if extQpRes then 7 + 4 else 7)), .align 8]

/-- columns of the RTI statistics, acados/ocp_nlp/ocp_nlp_sqp_rti.c:250-254 -/
def rtiStatN (logRes extQpRes : Bool) : Nat :=
  2 + (if logRes then 4 else 0) + (if extQpRes then 4 else 0)
/-- `ocp_nlp_sqp_rti_memory_calculate_size`, ocp_nlp_sqp_rti.c:232-262. -/
def rtiMemorySize (sz nlp : Nat) (logRes extQpRes : Bool) (asIter : Nat) : Nat :=
  makeIntMultipleOf 8 (sz + nlp + 8 * (rtiStatN logRes extQpRes * (2 + asIter)) + 8)
/-- `ocp_nlp_sqp_rti_memory_assign`, ocp_nlp_sqp_rti.c:266-312. -/
def rtiMemoryOps (sz nlp : Nat) (logRes extQpRes : Bool) (asIter : Nat) : List Op :=
  [.align 8, .struct sz, .struct nlp, .rawDoubles ((2 + asIter) * rtiStatN logRes extQpRes)]

/-- `ocp_nlp_ddp_memory_calculate_size`, acados/ocp_nlp/ocp_nlp_ddp.c:175-219. -/
def ddpMemorySize (B : Blasfeo) (sz nlp : Nat) (extQpRes : Bool) (maxIter : Nat) (d : NlpD) : Nat :=
  makeIntMultipleOf 8
    (sz + nlp + 8 * ((if extQpRes then 7 + 4 else 7) * (maxIter + 1))
      + B.dmat (maxUpTo d.N d.nu) (maxUpTo d.N d.nx) + 8 * (maxUpTo d.N d.nu * maxUpTo d.N d.nx)
      + 3 * 8 + 64)
/-- `ocp_nlp_ddp_memory_assign`, ocp_nlp_ddp.c:223-283. -/
def ddpMemoryOps (B : Blasfeo) (sz nlp : Nat) (extQpRes : Bool) (maxIter : Nat) (d : NlpD) : List Op :=
  [.align 8, .struct sz, .align 8, .struct nlp, .align 64,
   .dmat B (maxUpTo d.N d.nu) (maxUpTo d.N d.nx),
   .rawDoubles ((maxIter + 1) * (if extQpRes then 7 + 4 else 7)),
   .rawDoubles (maxUpTo d.N d.nu * maxUpTo d.N d.nx), .align 8]

/-- `ocp_nlp_sqp_wfqp_memory_calculate_size`, acados/ocp_nlp/ocp_nlp_sqp_with_feasible_qp.c:250-329;
`nns i` is the number of constraints that get a new slack (`n_nominal_ineq_nlp - ns - nbu + nsbu
[- nbx + nsbx]`, assumed not negative); `maxStr` is `MAX_STR_LEN`. -/
def wfqpMemorySize (B : Blasfeo) (sz sm sv nlp qpMem qpWork qpIn qpOut scal maxStr maxIter : Nat)
    (nns : Nat → Nat) (d : NlpD) : Nat :=
  makeIntMultipleOf 8
    (sz + nlp + qpMem + qpWork + qpIn + qpOut + scal + 8 * (13 * (maxIter + 1)) + 8 * (d.N + 1)
      + 8 * (d.N + 1)
      + ∑ i ∈ range (d.N + 1), (4 * nns i + 4 * (d.nb i + d.ng i + d.niNl i) + B.dvec (2 * d.ns i)
          + 2 * B.dmat (d.nx i + d.nu i) (d.nx i + d.nu i))
      + 4 * (d.N + 1) + sv * (d.N + 1) + 2 * (sm * (d.N + 1)) + maxStr + 3 * 8 + 64)
/-- `ocp_nlp_sqp_wfqp_memory_assign`, ocp_nlp_sqp_with_feasible_qp.c:333-451. -/
def wfqpMemoryOps (B : Blasfeo) (sz sm sv nlp qpMem qpWork qpIn qpOut scal maxStr maxIter : Nat)
    (nns : Nat → Nat) (d : NlpD) : List Op :=
  [.align 8, .struct sz, .align 8, .struct nlp, .struct qpMem, .struct qpWork, .struct qpIn,
   .struct qpOut, .struct scal, .ptrs sv (d.N + 1), .ptrs sm (d.N + 1), .ptrs sm (d.N + 1),
   .doubles ((maxIter + 1) * 13), .align 8, .ptrs 8 (d.N + 1), .ints (d.N + 1)]
    ++ loop (d.N + 1) (fun i => [.ints (nns i)]) ++ [.bools maxStr, .align 64]
    ++ loop (d.N + 1) (fun i => [.dmat B (d.nx i + d.nu i) (d.nx i + d.nu i),
        .dmat B (d.nx i + d.nu i) (d.nx i + d.nu i)])
    ++ loop (d.N + 1) (fun i => [.dvec B (2 * d.ns i)])

/-- options and workspaces of the four NLP solvers: own struct, then the NLP object
(ocp_nlp_sqp.c:67-95, 289-320; ocp_nlp_sqp_rti.c:68-100, 317-358; ocp_nlp_ddp.c:64-95, 289-320;
ocp_nlp_sqp_with_feasible_qp.c:66-95, 459-495). -/
def solverPairSize (sz nlp : Nat) : Nat := sz + nlp
/-- the matching assign / cast functions (see `solverPairSize`). -/
def solverPairOps (sz nlp : Nat) : List Op := [.struct sz, .struct nlp]

end Acados.Mem
