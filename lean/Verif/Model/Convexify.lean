import Verif.Model.Reg
/-!
# Convexification of the QP Hessians (`ocp_nlp_reg_convexify.c`)
-/
namespace Acados.Conv
open Finset
open Acados.Reg (EigFn trtrL project pack)
variable {K : Type*} [Field K] [LinearOrder K]

/-- dimensions, linearised dynamics (`BAbt` without its last row, `b`) and the option `delta` -/
structure Data (K : Type*) where
  N : Nat
  nx : Nat → Nat
  nu : Nat → Nat
  BAbt : Nat → Nat → Nat → K
  b : Nat → Nat → K
  delta : K

def Data.nux (D : Data K) (i : Nat) : Nat := D.nu i + D.nx i

/-- external linear algebra: `blasfeo_dpotrf_l` (lower Cholesky factor of the leading block, reads the
lower triangle) and `blasfeo_dtrsm_rltn` (solve `X·Lᵀ = S`) as arbitrary functions -/
structure Ext (K : Type*) where
  eig : EigFn K
  potrf : Nat → (Nat → Nat → K) → (Nat → Nat → K)
  trsm : Nat → Nat → (Nat → Nat → K) → (Nat → Nat → K) → (Nat → Nat → K)

/-- memory: the QP data that is modified (`RSQrq`, `rq`), the backup `original_RSQrq`, the scratch
matrix `BAQ` (kept between stages) and `Q_bar`; `reg` records which stages were projected (ghost) -/
structure Mem (K : Type*) where
  RSQ : Nat → Nat → Nat → K
  rq : Nat → Nat → K
  orig : Nat → Nat → Nat → K
  BAQ : Nat → Nat → K
  Qbar : Nat → Nat → K
  reg : Nat → Bool

/-- `blasfeo_drowin` (external): row `r` of the matrix becomes the first `n` entries of `x` -/
def rowin (n : Nat) (x : Nat → K) (r : Nat) (A : Nat → Nat → K) : Nat → Nat → K :=
  fun i j => if i = r ∧ j < n then x j else A i j

/-- `blasfeo_dgecp` (external) of the leading `m × n` block -/
def gecp (m n : Nat) (A B : Nat → Nat → K) : Nat → Nat → K :=
  fun i j => if i < m ∧ j < n then A i j else B i j

/-- terminal stage, ocp_nlp_reg_convexify.c:529-546 -/
def terminal (D : Data K) (s : Mem K) : Mem K :=
  let n := D.nux D.N
  let u := D.nu D.N
  let x := D.nx D.N
  let A := rowin n (s.rq D.N) n (s.RSQ D.N)
  let Q0 : Nat → Nat → K := fun i j => if i < x ∧ j < x then A (u + i) (u + j) else s.Qbar i j
  let Qt : Nat → Nat → K := fun i j => if i = j then D.delta else 0
  let A' : Nat → Nat → K := fun i j =>
    if u ≤ i ∧ i < u + x ∧ u ≤ j ∧ j < u + x then Qt (i - u) (j - u) else A i j
  let Q1 : Nat → Nat → K := fun i j => if i < x ∧ j < x then Q0 i j - Qt i j else Q0 i j
  { s with
    RSQ := Function.update s.RSQ D.N A'
    orig := Function.update s.orig D.N (gecp (n + 1) n A (s.orig D.N))
    Qbar := trtrL x Q1 }

/-- `BAbt` with `b` inserted as its last row, ocp_nlp_reg_convexify.c:551 -/
def Data.BAb (D : Data K) (ii : Nat) : Nat → Nat → K := fun r c =>
  if r = D.nux ii then D.b ii c else D.BAbt ii r c

/-- Hessian with the gradient in its last row, ocp_nlp_reg_convexify.c:552 -/
def stA1 (D : Data K) (ii : Nat) (s : Mem K) : Nat → Nat → K :=
  rowin (D.nux ii) (s.rq ii) (D.nux ii) (s.RSQ ii)

/-- `BAQ = BA * Q_bar'`, ocp_nlp_reg_convexify.c:573: `nx[ii]` (not `nx[ii+1]`) columns are computed,
the others keep the content of an earlier stage -/
def stBAQ (D : Data K) (ii : Nat) (s : Mem K) : Nat → Nat → K := fun r c =>
  if r < D.nux ii ∧ c < D.nx ii then ∑ l ∈ range (D.nx (ii + 1)), D.BAb ii r l * s.Qbar c l
  else s.BAQ r c

/-- rank update of the lower triangle, `nu+nx+1` rows, ocp_nlp_reg_convexify.c:575 -/
def stA2 (D : Data K) (ii : Nat) (s : Mem K) : Nat → Nat → K := fun r c =>
  if r < D.nux ii + 1 ∧ c < D.nux ii ∧ c ≤ r then
    stA1 D ii s r c + ∑ l ∈ range (D.nx (ii + 1)), D.BAb ii r l * stBAQ D ii s c l
  else stA1 D ii s r c

/-- `needs_regularization`, ocp_nlp_reg_convexify.c:582-588: some eigenvalue of `R` is below 1e-10.
The eigenvalue routine reads the column-major copy as a row-major array, i.e. it sees the transpose. -/
def stReg (E : Ext K) (D : Data K) (ii : Nat) (s : Mem K) : Bool :=
  (List.range (D.nu ii)).any fun k =>
    decide ((E.eig (D.nu ii) (fun i j => stA2 D ii s j i)).2 k < 1 / 10000000000)

/-- the projected Hessian, ocp_nlp_reg_convexify.c:590-600 -/
def stA3 (E : Ext K) (D : Data K) (ii : Nat) (s : Mem K) : Nat → Nat → K :=
  if stReg E D ii s then
    pack (D.nux ii) (project E.eig (D.nux ii) (fun i j => stA2 D ii s j i) (1 / 10000)) (stA2 D ii s)
  else stA2 D ii s

/-- the backup Hessian, ocp_nlp_reg_convexify.c:554 and 602-603 -/
def stOrig (E : Ext K) (D : Data K) (ii : Nat) (s : Mem K) : Nat → Nat → K := fun i j =>
  if stReg E D ii s ∧ i < D.nux ii ∧ j < D.nux ii then
    gecp (D.nux ii + 1) (D.nux ii) (stA1 D ii s) (s.orig ii) i j
      - (stA2 D ii s i j - stA3 E D ii s i j)
  else gecp (D.nux ii + 1) (D.nux ii) (stA1 D ii s) (s.orig ii) i j

/-- `Q = S' R^-1 S + delta I` (lower triangle), ocp_nlp_reg_convexify.c:613-624 -/
def stA4 (E : Ext K) (D : Data K) (ii : Nat) (s : Mem K) : Nat → Nat → K :=
  let u := D.nu ii
  let x := D.nx ii
  let A3 := stA3 E D ii s
  let S := E.trsm x u (E.potrf u A3) (fun i j => A3 (u + i) j)
  fun i j =>
    if u ≤ i ∧ i < u + x ∧ u ≤ j ∧ j ≤ i then
      (if i = j then D.delta else 0) + ∑ k ∈ range u, S (i - u) k * S (j - u) k
    else A3 i j

/-- one pass of the backward loop, ocp_nlp_reg_convexify.c:548-641 -/
def stage (E : Ext K) (D : Data K) (ii : Nat) (s : Mem K) : Mem K :=
  let n := D.nux ii
  let u := D.nu ii
  let x := D.nx ii
  let Q0 : Nat → Nat → K := fun i j =>
    if i < x ∧ j < x then stA3 E D ii s (u + i) (u + j) else s.Qbar i j
  let Q1 : Nat → Nat → K := fun i j =>
    if i < x ∧ j < x then Q0 i j - stA4 E D ii s (u + i) (u + j) else Q0 i j
  { RSQ := Function.update s.RSQ ii (stA4 E D ii s)
    rq := Function.update s.rq ii fun j => if j < n then stA2 D ii s n j else s.rq ii j
    orig := Function.update s.orig ii (stOrig E D ii s)
    BAQ := stBAQ D ii s
    Qbar := trtrL x Q1
    reg := Function.update s.reg ii (stReg E D ii s) }

/-- stages `k-1, …, 0` -/
def loop (E : Ext K) (D : Data K) : Nat → Mem K → Mem K
  | 0, s => s
  | k + 1, s => loop E D k (stage E D k s)

/-- `ocp_nlp_reg_convexify_regularize`, ocp_nlp_reg_convexify.c:516-645 -/
def regularize (E : Ext K) (D : Data K) (s : Mem K) : Mem K := loop E D D.N (terminal D s)

/-- row `n` of each Hessian block, i.e. the gradient that is stored inside `RSQrq` -/
def lastRow (D : Data K) (s : Mem K) : Nat → Nat → K := fun i j => s.RSQ i (D.nux i) j

/-- `ocp_nlp_reg_convexify_regularize_lhs` (RTI preparation), ocp_nlp_reg_convexify.c:652-731: as
`regularize`, but the gradient is neither inserted into `RSQrq` nor written back, so the last row of
`RSQrq` is used as it is -/
def regularizeLhs (E : Ext K) (D : Data K) (s : Mem K) : Mem K :=
  { regularize E D { s with rq := lastRow D s } with rq := s.rq }

/-- `ocp_nlp_reg_convexify_regularize_rhs` (RTI feedback), ocp_nlp_reg_convexify.c:735-816: starts from
the backup and repeats `regularize`; the copy of the new last row into the backup is commented out for
the stages before `N` (line 770) -/
def regularizeRhs (E : Ext K) (D : Data K) (s : Mem K) : Mem K :=
  let s1 := { s with RSQ := fun i => if i ≤ D.N then gecp (D.nux i + 1) (D.nux i) (s.orig i) (s.RSQ i)
                       else s.RSQ i }
  let R := regularize E D s1
  { R with orig := fun i r c => if i < D.N ∧ r = D.nux i then s.orig i r c else R.orig i r c }

/-- constraint data used when the multipliers are recovered; `nb = nbu + nbx` -/
structure Con (K : Type*) where
  nb : Nat → Nat
  ng : Nat → Nat
  idxb : Nat → Nat → Nat
  DCt : Nat → Nat → Nat → K

/-- `tmp_nuxM` of one stage before the dynamics term: gradient, bounds, Hessian and general
constraints, ocp_nlp_reg_convexify.c:866-878 and 884-890.  Only the entries `≥ nu` are used. -/
def stageGrad (D : Data K) (C : Con K) (s : Mem K) (ux lam : Nat → Nat → K) (k r : Nat) : K :=
  let n := D.nux k
  let m := C.nb k + C.ng k
  let t : Nat → K := fun j => - lam k j + lam k (m + j)
  s.orig k n r + (∑ j ∈ range (C.nb k), if C.idxb k j = r then t j else 0) +
  (∑ c ∈ range n, (if c ≤ r then s.orig k r c else s.orig k c r) * ux k c) +
  ∑ j ∈ range (C.ng k), C.DCt k r j * t (C.nb k + j)

/-- `ocp_nlp_reg_convexify_correct_dual_sol`, ocp_nlp_reg_convexify.c:825-900: the multipliers
`pi[k-1]` for `k = N, …, 1`; the argument counts down from `N` -/
def recoverPi (D : Data K) (C : Con K) (s : Mem K) (ux lam : Nat → Nat → K) : Nat → Nat → K
  | 0 => fun r => if r < D.nx D.N then stageGrad D C s ux lam D.N (D.nu D.N + r) else 0
  | t + 1 => fun r =>
    let k := D.N - (t + 1)
    if r < D.nx k then
      stageGrad D C s ux lam k (D.nu k + r) +
        ∑ c ∈ range (D.nx (k + 1)), D.BAbt k (D.nu k + r) c * recoverPi D C s ux lam t c
    else 0

/-- the gradient after the multipliers were recovered, ocp_nlp_reg_convexify.c:845-849 -/
def restoredRq (D : Data K) (s : Mem K) (k : Nat) : Nat → K := fun j =>
  if k ≤ D.N ∧ j < D.nux k then s.orig k (D.nux k) j else s.rq k j

end Acados.Conv
