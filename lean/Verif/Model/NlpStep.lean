import Verif.Model.Num
import Mathlib.Algebra.BigOperators.Group.Finset.Basic
/-!
# Iterate updates

`ocp_nlp_update_variables_sqp`, `ocp_nlp_update_variables_sqp_delta_primal_dual`, the Anderson
acceleration of the fixed-step globalization, `ocp_nlp_initialize_qp_from_nlp`, `copy_ocp_nlp_out`
and the `ocp_qp_out` vector operations they use.

The BLASFEO vector kernels are trusted; they are modelled by what they compute on the entries they
are asked to write, all other entries of the destination keep their value.
-/
namespace Acados.Step
open Finset

/-! ## BLASFEO kernels (external library, trusted) -/

section
variable {D : Type*}

/-- `blasfeo_daxpy(n, a, x, y, z)`: `z = a x + y` -/
def axpy [Mul D] [Add D] (n : Nat) (a : D) (x y z : Nat → D) : Nat → D :=
  fun j => if j < n then a * x j + y j else z j
/-- `blasfeo_daxpby(n, a, x, b, y, z)`: `z = a x + b y` -/
def axpby [Mul D] [Add D] (n : Nat) (a : D) (x : Nat → D) (b : D) (y z : Nat → D) : Nat → D :=
  fun j => if j < n then a * x j + b * y j else z j
/-- `blasfeo_dveccp(n, x, z)` -/
def veccp (n : Nat) (x z : Nat → D) : Nat → D := fun j => if j < n then x j else z j
/-- `blasfeo_dvecse(n, a, z)` -/
def vecse (n : Nat) (a : D) (z : Nat → D) : Nat → D := fun j => if j < n then a else z j
/-- `blasfeo_dvecad(n, a, x, z)`: `z += a x` -/
def vecad [Mul D] [Add D] (n : Nat) (a : D) (x z : Nat → D) : Nat → D :=
  fun j => if j < n then z j + a * x j else z j
/-- `blasfeo_dvecsc(n, a, z)`: `z *= a` -/
def vecsc [Mul D] (n : Nat) (a : D) (z : Nat → D) : Nat → D :=
  fun j => if j < n then a * z j else z j
end

/-- `blasfeo_dgemv_t(m, n, a, A, x, b, y, z)`: `z = a Aᵀ x + b y` -/
def gemvT {K : Type*} [CommRing K] (m n : Nat) (a : K) (A : Nat → Nat → K) (x : Nat → K) (b : K)
    (y z : Nat → K) : Nat → K :=
  fun j => if j < n then b * y j + a * ∑ r ∈ range m, A r j * x r else z j
/-- `blasfeo_ddot(n, x, y)` -/
def dot {K : Type*} [CommRing K] (n : Nat) (x y : Nat → K) : K := ∑ j ∈ range n, x j * y j

/-! ## Dimensions and iterates -/

/-- stage dimensions of the NLP (`ocp_nlp_dims`): `ni = nb + ng + nh + nphi + ns`,
ocp_nlp_common.c:659-741; `nv = nx + nu + 2 ns`, ocp_nlp_common.c:427-627 -/
structure Dims where
  N : Nat
  nx : Nat → Nat
  nu : Nat → Nat
  nz : Nat → Nat
  ns : Nat → Nat
  ni : Nat → Nat

def Dims.nv (d : Dims) (i : Nat) : Nat := d.nx i + d.nu i + 2 * d.ns i

/-- `ocp_nlp_out` -/
@[ext] structure Out (K : Type*) where
  ux : Nat → Nat → K
  z : Nat → Nat → K
  pi : Nat → Nat → K
  lam : Nat → Nat → K

/-- `ocp_qp_out` (HPIPM `d_ocp_qp_sol`) -/
@[ext] structure QpOut (K : Type*) where
  ux : Nat → Nat → K
  pi : Nat → Nat → K
  lam : Nat → Nat → K
  t : Nat → Nat → K

/-- sensitivities `dzduxt` and values `z_alg` of the algebraic variables in the NLP memory -/
structure Alg (K : Type*) where
  dzduxt : Nat → Nat → Nat → K
  zAlg : Nat → Nat → K

section
variable {K : Type*} [CommRing K]

/-- `ocp_nlp_update_variables_sqp`, ocp_nlp_common.c:3292-3351.  `dest` is the previous content of
`out_destination`; the call sites pass `out_destination = out_start` (fixed step) or a separate
trial iterate (line searches). -/
def updateVars (d : Dims) (mem : Alg K) (start : Out K) (qp : QpOut K) (alpha : K) (full : Bool)
    (dest : Out K) : Out K where
  ux := fun i => if i ≤ d.N then axpy (d.nv i) alpha (qp.ux i) (start.ux i) (dest.ux i)
    else dest.ux i
  lam := fun i => if i ≤ d.N then
      (if full then veccp (2 * d.ni i) (qp.lam i) (dest.lam i)
        else axpby (2 * d.ni i) (1 - alpha) (start.lam i) alpha (qp.lam i) (dest.lam i))
    else dest.lam i
  pi := fun i => if i < d.N then
      (if full then veccp (d.nx (i + 1)) (qp.pi i) (dest.pi i)
        else axpby (d.nx (i + 1)) (1 - alpha) (start.pi i) alpha (qp.pi i) (dest.pi i))
    else dest.pi i
  z := fun i => if i < d.N then
      gemvT (d.nu i + d.nx i) (d.nz i) alpha (mem.dzduxt i) (qp.ux i) 1 (mem.zAlg i) (dest.z i)
    else dest.z i

/-- `ocp_nlp_convert_primaldelta_absdual_step_to_delta_step`, ocp_nlp_common.c:3384-3404 -/
def toDelta (d : Dims) (out : Out K) (step : QpOut K) : QpOut K :=
  { step with
    lam := fun i => if i ≤ d.N then vecad (2 * d.ni i) (-1) (out.lam i) (step.lam i) else step.lam i
    pi := fun i => if i < d.N then vecad (d.nx (i + 1)) (-1) (out.pi i) (step.pi i) else step.pi i }

/-- `ocp_nlp_update_variables_sqp_delta_primal_dual`, ocp_nlp_common.c:3407-3440 -/
def updateDelta (d : Dims) (mem : Alg K) (alpha : K) (step : QpOut K) (out : Out K) : Out K where
  ux := fun i => if i ≤ d.N then axpy (d.nv i) alpha (step.ux i) (out.ux i) (out.ux i) else out.ux i
  lam := fun i => if i ≤ d.N then axpy (2 * d.ni i) alpha (step.lam i) (out.lam i) (out.lam i)
    else out.lam i
  pi := fun i => if i < d.N then axpy (d.nx (i + 1)) alpha (step.pi i) (out.pi i) (out.pi i)
    else out.pi i
  z := fun i => if i < d.N then
      gemvT (d.nu i + d.nx i) (d.nz i) alpha (mem.dzduxt i) (step.ux i) 1 (mem.zAlg i) (out.z i)
    else out.z i

/-- `ocp_nlp_initialize_qp_from_nlp`, ocp_nlp_common.c:3353-3373; the slacks `t`
(`ocp_qp_compute_t`) are a parameter -/
def initQpFromNlp (d : Dims) (out : Out K) (t : Nat → Nat → K) (qp : QpOut K) : QpOut K where
  ux := fun i => if i ≤ d.N then vecse (d.nv i) 0 (qp.ux i) else qp.ux i
  lam := fun i => if i ≤ d.N then veccp (2 * d.ni i) (out.lam i) (qp.lam i) else qp.lam i
  pi := fun i => if i < d.N then veccp (d.nx (i + 1)) (out.pi i) (qp.pi i) else qp.pi i
  t := t

/-- `copy_ocp_nlp_out`, ocp_nlp_common.c:3823-3843 -/
def copyOut (d : Dims) (src dst : Out K) : Out K where
  ux := fun i => if i ≤ d.N then veccp (d.nv i) (src.ux i) (dst.ux i) else dst.ux i
  z := fun i => if i ≤ d.N then veccp (d.nz i) (src.z i) (dst.z i) else dst.z i
  lam := fun i => if i ≤ d.N then veccp (2 * d.ni i) (src.lam i) (dst.lam i) else dst.lam i
  pi := fun i => if i < d.N then veccp (d.nx (i + 1)) (src.pi i) (dst.pi i) else dst.pi i

/-! ## `ocp_qp_out` arithmetic, ocp_qp_common.c:332-499

`nbg i = nbu + nbx + ng` of the QP; `ni i = nbg i + ns i`. -/

/-- `ocp_qp_out_axpy`, ocp_qp_common.c:338-361 -/
def qpAxpy (d : Dims) (a : K) (x y z : QpOut K) : QpOut K where
  ux := fun i => if i ≤ d.N then axpy (d.nv i) a (x.ux i) (y.ux i) (z.ux i) else z.ux i
  lam := fun i => if i ≤ d.N then axpy (2 * d.ni i) a (x.lam i) (y.lam i) (z.lam i) else z.lam i
  pi := fun i => if i < d.N then axpy (d.nx (i + 1)) a (x.pi i) (y.pi i) (z.pi i) else z.pi i
  t := fun i => if i ≤ d.N then axpy (2 * d.ni i) a (x.t i) (y.t i) (z.t i) else z.t i

/-- `ocp_qp_out_sc`, ocp_qp_common.c:449-472 -/
def qpSc (d : Dims) (a : K) (x : QpOut K) : QpOut K where
  ux := fun i => if i ≤ d.N then vecsc (d.nv i) a (x.ux i) else x.ux i
  lam := fun i => if i ≤ d.N then vecsc (2 * d.ni i) a (x.lam i) else x.lam i
  pi := fun i => if i < d.N then vecsc (d.nx (i + 1)) a (x.pi i) else x.pi i
  t := fun i => if i ≤ d.N then vecsc (2 * d.ni i) a (x.t i) else x.t i

/-- `ocp_qp_out_add`, ocp_qp_common.c:475-499: `y += a x` -/
def qpAdd (d : Dims) (a : K) (x y : QpOut K) : QpOut K where
  ux := fun i => if i ≤ d.N then vecad (d.nv i) a (x.ux i) (y.ux i) else y.ux i
  lam := fun i => if i ≤ d.N then vecad (2 * d.ni i) a (x.lam i) (y.lam i) else y.lam i
  pi := fun i => if i < d.N then vecad (d.nx (i + 1)) a (x.pi i) (y.pi i) else y.pi i
  t := fun i => if i ≤ d.N then vecad (2 * d.ni i) a (x.t i) (y.t i) else y.t i

/-- `ocp_qp_out_ddot`, ocp_qp_common.c:364-420 (the compiled branches): primal part, multipliers as
lower minus upper, slack-bound multipliers, dynamics multipliers.  `nbg i = nbu + nbx + ng`. -/
def qpDot (d : Dims) (x y : QpOut K) : K :=
  ∑ i ∈ range (d.N + 1),
    (dot (d.nv i) (x.ux i) (y.ux i) +
      dot (d.ni i - d.ns i) (fun j => x.lam i j - x.lam i (d.ni i - d.ns i + j))
        (fun j => y.lam i j - y.lam i (d.ni i - d.ns i + j)) +
      dot (2 * d.ns i) (fun j => x.lam i (2 * (d.ni i - d.ns i) + j))
        (fun j => y.lam i (2 * (d.ni i - d.ns i) + j)) +
      (if i < d.N then dot (d.nx (i + 1)) (x.pi i) (y.pi i) else 0))

end

section
variable {K : Type*} [Field K]

/-- `ocp_nlp_compute_anderson_gamma`, ocp_nlp_common.c:3376-3381.  The C division by zero gives
NaN or an infinity, see `gammaOf` below. -/
def andersonGamma (d : Dims) (new diff : QpOut K) : K := qpDot d new diff / qpDot d diff diff

/-- memory of the Anderson acceleration: `anderson_step`, `prev_qp_out` -/
structure Anderson (K : Type*) where
  step : QpOut K
  prev : QpOut K

/-- `ocp_nlp_globalization_fixed_step_find_acceptable_iterate` with
`with_anderson_acceleration`, ocp_nlp_globalization_fixed_step.c:174-203.  `restart` is the test
`iter == 0 || inf_norm_res > anderson_activation_threshold`. -/
def andersonUpdate (d : Dims) (mem : Alg K) (alpha : K) (restart : Bool) (qp : QpOut K)
    (out : Out K) (am : Anderson K) : Out K × Anderson K :=
  let q := toDelta d out qp
  if restart then
    (updateDelta d mem alpha q out, { step := q, prev := q })
  else
    let diff := qpAxpy d (-1) am.prev q q
    let g := andersonGamma d q diff
    let s := qpAdd d (alpha - g * alpha) q (qpAdd d (g * alpha) am.prev (qpSc d (-g) am.step))
    (updateDelta d mem alpha s out, { step := s, prev := q })

/-- fixed-step globalization, ocp_nlp_globalization_fixed_step.c:152-222 (without logging):
without Anderson acceleration `step_update = ocp_nlp_update_variables_sqp` in place -/
def fixedStep (d : Dims) (mem : Alg K) (alpha : K) (full anderson restart : Bool) (qp : QpOut K)
    (out : Out K) (am : Anderson K) : Out K × Anderson K :=
  if anderson then andersonUpdate d mem alpha restart qp out am
  else (updateVars d mem out qp alpha full out, am)

end

/-- the division of `ocp_nlp_compute_anderson_gamma` in floating point -/
def gammaOf (num den : Dbl) : Dbl := num / den

/-! ## OpenMP loops

`#pragma omp parallel for` distributes the iterations over threads.  A loop is modelled as one list
of atomic actions per iteration; an execution is an arbitrary interleaving of these lists (every
static, dynamic or guided schedule on any number of threads is one of them). -/

/-- an interleaving of the lists in `ts` (indexed by iteration) -/
inductive Interleaves {α : Type*} : (Nat → List α) → List α → Prop
  | done (ts : Nat → List α) (h : ∀ i, ts i = []) : Interleaves ts []
  | step (ts : Nat → List α) (i : Nat) (a : α) (rest sched : List α) (h : ts i = a :: rest)
      (hr : Interleaves (fun j => if j = i then rest else ts j) sched) : Interleaves ts (a :: sched)

/-- running a schedule -/
def exec {S : Type*} (sched : List (S → S)) (s : S) : S := sched.foldl (fun s f => f s) s

/-- sequential execution of iterations `0..n-1` -/
def seqSched {α : Type*} (ts : Nat → List α) (n : Nat) : List α := (List.range n).flatMap ts

section
variable {K : Type*} [CommRing K]

/-- the loop body of `ocp_nlp_update_variables_sqp` for stage `i`, one action per written element
(out_start = out_destination, as in the fixed-step globalization) -/
def updateActions (d : Dims) (mem : Alg K) (qp : QpOut K) (alpha : K) (full : Bool) (i : Nat) :
    List (Out K → Out K) :=
  if i ≤ d.N then
    (List.range (d.nv i)).map (fun j o => { o with
      ux := Function.update o.ux i (Function.update (o.ux i) j (alpha * qp.ux i j + o.ux i j)) }) ++
    (List.range (2 * d.ni i)).map (fun j o => { o with
      lam := Function.update o.lam i (Function.update (o.lam i) j
        (if full then qp.lam i j else (1 - alpha) * o.lam i j + alpha * qp.lam i j)) }) ++
    (if i < d.N then
      (List.range (d.nx (i + 1))).map (fun j o => { o with
        pi := Function.update o.pi i (Function.update (o.pi i) j
          (if full then qp.pi i j else (1 - alpha) * o.pi i j + alpha * qp.pi i j)) }) ++
      (List.range (d.nz i)).map (fun j o => { o with
        z := Function.update o.z i (Function.update (o.z i) j
          (1 * mem.zAlg i j + alpha * ∑ r ∈ range (d.nu i + d.nx i), mem.dzduxt i r j * qp.ux i r)) })
    else [])
  else []

/-- the shared variable of the loops in `ocp_qp_common.c`: `int ni_stage;` is declared before the
`#pragma omp parallel for` and hence shared (ocp_qp_common.c:345,430,456,483) -/
structure AddState (K : Type*) where
  niStage : Nat
  y : QpOut K

/-- the loop body of `ocp_qp_out_add`, ocp_qp_common.c:488-498, one action per statement -/
def addActions (d : Dims) (a : K) (x : QpOut K) (i : Nat) : List (AddState K → AddState K) :=
  if i ≤ d.N then
    [ (fun s => { s with niStage := d.ni i }),
      (fun s => { s with y := { s.y with
        ux := Function.update s.y.ux i (vecad (d.nv i) a (x.ux i) (s.y.ux i)) } }),
      (fun s => { s with y := { s.y with
        lam := Function.update s.y.lam i (vecad (2 * s.niStage) a (x.lam i) (s.y.lam i)) } }),
      (fun s => if i < d.N then { s with y := { s.y with
        pi := Function.update s.y.pi i (vecad (d.nx (i + 1)) a (x.pi i) (s.y.pi i)) } } else s),
      (fun s => { s with y := { s.y with
        t := Function.update s.y.t i (vecad (2 * s.niStage) a (x.t i) (s.y.t i)) } }) ]
  else []

end

end Acados.Step
