import Verif.Model.QpScaling
/-!
# Hessian regularisation: mirror, project, Gershgorin-Levenberg-Marquardt

`ocp_nlp_reg_common.c`, `ocp_nlp_reg_mirror.c`, `ocp_nlp_reg_project.c`, `ocp_nlp_reg_glm.c`,
`acados/utils/math.c`.  BLASFEO matrices are functions of row and column; the C arrays that
`blasfeo_unpack_dmat` fills are column-major, the eigenvalue routine and the reconstruction read
them row-major (`A[i*dim+j]`), so the row-major view is the transpose of the BLASFEO matrix.
-/
namespace Acados.Reg
open Finset
variable {K : Type*} [Field K] [LinearOrder K]

/-- `acados_eigen_decomposition` (math.c:1098-1110, with `tred2` 842-985 and `tql2` 987-1095):
an arbitrary function from the size and the row-major input to eigenvectors (row-major `V`) and
eigenvalues `d`.  Its numerical method is not modelled; the theorems assume that it is exact on the
blocks it is called with (`EigOk`).  `tred2` reads only the entries `A[i*dim+j]` with `j ≤ i`. -/
abbrev EigFn (K : Type*) := Nat → (Nat → Nat → K) → (Nat → Nat → K) × (Nat → K)

/-- `acados_reconstruct_A`, ocp_nlp_reg_common.c:165-180: entry `(i, j)` with `j ≤ i` is computed,
`(j, i)` is copied from it.  Simplification: the double loop is written as its closed form. -/
def reconstruct (n : Nat) (V : Nat → Nat → K) (d : Nat → K) (i j : Nat) : K :=
  ∑ k ∈ range n, V (max i j) k * d k * V (min i j) k

/-- one eigenvalue after mirroring, ocp_nlp_reg_common.c:191-198 and 217-224 -/
def mirrorVal (eps x : K) : K :=
  if -eps ≤ x ∧ x ≤ eps then eps else if x < 0 then -x else x

/-- one eigenvalue after projection, ocp_nlp_reg_common.c:236-241 and 261-266 -/
def projectVal (eps x : K) : K := if x < eps then eps else x

/-- `acados_mirror`, ocp_nlp_reg_common.c:184-201 -/
def mirror (eig : EigFn K) (n : Nat) (A : Nat → Nat → K) (eps : K) : Nat → Nat → K :=
  let r := eig n A
  reconstruct n r.1 fun k => mirrorVal eps (r.2 k)

/-- `acados_project`, ocp_nlp_reg_common.c:229-244 -/
def project (eig : EigFn K) (n : Nat) (A : Nat → Nat → K) (eps : K) : Nat → Nat → K :=
  let r := eig n A
  reconstruct n r.1 fun k => projectVal eps (r.2 k)

/-- `acados_mirror_adaptive_eps`, ocp_nlp_reg_common.c:203-227 -/
def mirrorAdaptive (eig : EigFn K) (n : Nat) (A : Nat → Nat → K) (maxCond minEps : K) :
    Nat → Nat → K :=
  let r := eig n A
  let maxEig := (List.range n).foldl (fun m k => cmax m |r.2 k|) 0
  let eps := cmax (maxEig / maxCond) minEps
  reconstruct n r.1 fun k => mirrorVal eps (r.2 k)

/-- `acados_project_adaptive_eps`, ocp_nlp_reg_common.c:247-269 -/
def projectAdaptive (eig : EigFn K) (n : Nat) (A : Nat → Nat → K) (maxCond minEps : K) :
    Nat → Nat → K :=
  let r := eig n A
  let maxEig := (List.range n).foldl (fun m k => cmax m (r.2 k)) 0
  let eps := cmax (maxEig / maxCond) minEps
  reconstruct n r.1 fun k => projectVal eps (r.2 k)

/-- `blasfeo_dtrtr_l` in place (external): the lower triangle of the leading `n` block is copied to
the upper one -/
def trtrL (n : Nat) (A : Nat → Nat → K) : Nat → Nat → K :=
  fun i j => if i < n ∧ j < n ∧ i < j then A j i else A i j

/-- `blasfeo_pack_dmat` of a column-major array `R` (given by its row-major view) -/
def pack (n : Nat) (R A : Nat → Nat → K) : Nat → Nat → K :=
  fun i j => if i < n ∧ j < n then R j i else A i j

/-- options of the mirror and project modules, ocp_nlp_reg_mirror.c:65-110 -/
structure Opts (K : Type*) where
  epsilon : K
  minEpsilon : K
  adaptiveEps : Bool
  maxCond : K

/-- default options, ocp_nlp_reg_mirror.c:65-75 -/
def defaults : Opts K := ⟨1 / 10000, 1 / 100000000, false, 10000000⟩

/-- `ocp_nlp_reg_mirror_regularize`, ocp_nlp_reg_mirror.c:288-318; `n ii = nu[ii]+nx[ii]` -/
def regMirror (eig : EigFn K) (o : Opts K) (N : Nat) (n : Nat → Nat) (H : Nat → Nat → Nat → K) :
    Nat → Nat → Nat → K := fun ii =>
  if ii ≤ N then
    let A := trtrL (n ii) (H ii)
    let R := if o.adaptiveEps then mirrorAdaptive eig (n ii) (fun i j => A j i) o.maxCond o.minEpsilon
      else mirror eig (n ii) (fun i j => A j i) o.epsilon
    pack (n ii) R A
  else H ii

/-- `ocp_nlp_reg_project_regularize`, ocp_nlp_reg_project.c:288-316 -/
def regProject (eig : EigFn K) (o : Opts K) (N : Nat) (n : Nat → Nat) (H : Nat → Nat → Nat → K) :
    Nat → Nat → Nat → K := fun ii =>
  if ii ≤ N then
    let A := trtrL (n ii) (H ii)
    let R := if o.adaptiveEps then projectAdaptive eig (n ii) (fun i j => A j i) o.maxCond o.minEpsilon
      else project eig (n ii) (fun i j => A j i) o.epsilon
    pack (n ii) R A
  else H ii

/-- `ACADOS_INFTY`, acados/utils/types.h -/
def infty : K := 10000000000

/-- `compute_gershgorin_min_eig_estimate`, math.c:1135-1155 -/
def gershMin (n : Nat) (A : Nat → Nat → K) : K :=
  (List.range n).foldl (fun lam i =>
    cmin lam (A i i - ∑ j ∈ range n, (if j ≠ i then |A i j| else 0))) infty

/-- `ocp_nlp_reg_glm_regularize`, ocp_nlp_reg_glm.c:242-269 -/
def regGlm (eps : K) (N : Nat) (n : Nat → Nat) (H : Nat → Nat → Nat → K) :
    Nat → Nat → Nat → K := fun ii =>
  if ii ≤ N then
    let A := trtrL (n ii) (H ii)
    let tmp := gershMin (n ii) A
    if tmp < eps then
      let alpha := if tmp < 0 then |tmp| + eps else eps
      fun i j => if i < n ii ∧ i = j then A i j + alpha else A i j
    else A
  else H ii

end Acados.Reg
