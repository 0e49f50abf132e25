import Verif.Model.Reg
/-!
# Projection of the reduced Hessian (`ocp_nlp_reg_project_reduc_hess.c`)
-/
namespace Acados.ReducHess
open Finset
open Acados.Reg (EigFn trtrL reconstruct pack)
variable {K : Type*} [Field K] [LinearOrder K]

/-- dimensions (ocp_nlp_reg_dims) and the linearised dynamics: `BAbt[i]` without its last row -/
structure Data (K : Type*) where
  N : Nat
  nx : Nat → Nat
  nu : Nat → Nat
  BAbt : Nat → Nat → Nat → K

def Data.nux (D : Data K) (i : Nat) : Nat := D.nu i + D.nx i

/-- ocp_nlp_reg_project_reduc_hess_opts, ocp_nlp_reg_project_reduc_hess.h -/
structure Opts (K : Type*) where
  thrEig : K
  minEig : K
  minPivot : K
  pivoting : Bool

/-- ocp_nlp_reg_project_reduc_hess.c:66-76 -/
def defaults : Opts K := ⟨1 / 1000000000000, 1 / 10000, 1 / 1000000000000, true⟩

/-- external linear algebra: the eigenvalue routine and `blasfeo_dpotrf_l_mn` (Cholesky factor of the
leading `n × n` block together with the `m - n` rows below it) as arbitrary functions -/
structure Ext (K : Type*) where
  eig : EigFn K
  potrf : Nat → Nat → (Nat → Nat → K) → (Nat → Nat → K)

/-- the QP Hessians that are modified and the scratch matrices whose content survives a pass of the
loop: `P` and `L2` -/
structure Mem (K : Type*) where
  RSQ : Nat → Nat → Nat → K
  P : Nat → Nat → K
  L2 : Nat → Nat → K

/-- `blasfeo_dgead` (external): add the leading `m × n` block of `A` to the block of `B` at `(bi, bj)` -/
def gead (m n : Nat) (a : K) (A : Nat → Nat → K) (B : Nat → Nat → K) (bi bj : Nat) : Nat → Nat → K :=
  fun i j => if bi ≤ i ∧ i < bi + m ∧ bj ≤ j ∧ j < bj + n then B i j + a * A (i - bi) (j - bj) else B i j

/-- `AL = BAbt · Pᵀ`, ocp_nlp_reg_project_reduc_hess.c:366 and 490 -/
def stAL (D : Data K) (ss : Nat) (P : Nat → Nat → K) : Nat → Nat → K := fun r c =>
  ∑ l ∈ range (D.nx (ss + 1)), D.BAbt ss r l * P c l

/-- the matrix `L` before regularisation, ocp_nlp_reg_project_reduc_hess.c:359-369 and 490-492.
`dtrcp_l`/`dsyrk_ln` write the lower triangle, `dtrtr_l` copies it up.  Simplification: entries outside
the leading `nu+nx` block, which are never read, are given the same formula. -/
def stL (D : Data K) (ss : Nat) (s : Mem K) : Nat → Nat → K :=
  trtrL (D.nux ss) fun r c =>
    if ss = D.N then s.RSQ ss r c
    else s.RSQ ss r c + ∑ l ∈ range (D.nx (ss + 1)), stAL D ss s.P r l * D.BAbt ss c l

/-- eigenvalue corrections, ocp_nlp_reg_project_reduc_hess.c:379-390 and 495-501 -/
def corr (o : Opts K) (d : Nat → K) (j : Nat) : K := if d j < o.thrEig then o.minEig - d j else 0

/-- eigen decomposition of the leading `n` block of `L`: the column-major copy is read as row-major,
ocp_nlp_reg_project_reduc_hess.c:376-377 and 493-494 -/
def stEig (E : Ext K) (n : Nat) (L : Nat → Nat → K) : (Nat → Nat → K) × (Nat → K) :=
  E.eig n fun i j => L j i

/-- `do_reg`, ocp_nlp_reg_project_reduc_hess.c:378-390 -/
def stReg (E : Ext K) (o : Opts K) (n : Nat) (L : Nat → Nat → K) : Bool :=
  (List.range n).any fun j => decide ((stEig E n L).2 j < o.thrEig)

/-- `acados_reconstruct_A` of the corrections, ocp_nlp_reg_project_reduc_hess.c:393 and 502 -/
def stRec (E : Ext K) (o : Opts K) (n : Nat) (L : Nat → Nat → K) : Nat → Nat → K :=
  reconstruct n (stEig E n L).1 (corr o (stEig E n L).2)

/-- `L2` after line 395: zero with the correction packed into the leading block (column-major), or the
old content if nothing is regularised; ocp_nlp_reg_project_reduc_hess.c:394-395 -/
def stPk (E : Ext K) (o : Opts K) (D : Data K) (ss : Nat) (s : Mem K) : Nat → Nat → K :=
  if stReg E o (D.nu ss) (stL D ss s) then
    pack (D.nu ss) (stRec E o (D.nu ss) (stL D ss s))
      (fun i j => if i < D.nux ss ∧ j < D.nux ss then 0 else s.L2 i j)
  else s.L2

/-- the Hessian after line 398, ocp_nlp_reg_project_reduc_hess.c:397-398 -/
def stH1 (E : Ext K) (o : Opts K) (D : Data K) (ss : Nat) (s : Mem K) : Nat → Nat → K :=
  if stReg E o (D.nu ss) (stL D ss s) then
    gead (D.nu ss) (D.nu ss) 1 (stPk E o D ss s) (s.RSQ ss) 0 0
  else s.RSQ ss

/-- `L` after line 400, ocp_nlp_reg_project_reduc_hess.c:399-400 -/
def stL1 (E : Ext K) (o : Opts K) (D : Data K) (ss : Nat) (s : Mem K) : Nat → Nat → K :=
  if stReg E o (D.nu ss) (stL D ss s) then
    gead (D.nu ss) (D.nu ss) 1 (stPk E o D ss s) (stL D ss s) 0 0
  else stL D ss s

/-- `L2` after the factorisation of its first `nu` columns, ocp_nlp_reg_project_reduc_hess.c:404-406 -/
def stF (E : Ext K) (o : Opts K) (D : Data K) (ss : Nat) (s : Mem K) : Nat → Nat → K := fun i j =>
  if i < D.nux ss ∧ j < D.nu ss then E.potrf (D.nux ss) (D.nu ss) (stL1 E o D ss s) i j
  else stPk E o D ss s i j

/-- `L2` with the regularised Schur complement in (the lower triangle of) its trailing block,
ocp_nlp_reg_project_reduc_hess.c:407-408 -/
def stL2 (E : Ext K) (o : Opts K) (D : Data K) (ss : Nat) (s : Mem K) : Nat → Nat → K := fun i j =>
  if D.nu ss ≤ j ∧ j ≤ i ∧ i < D.nux ss then
    -∑ k ∈ range (D.nu ss), stF E o D ss s i k * stF E o D ss s j k
  else stF E o D ss s i j

/-! ### `true_schur` -/

/-- exchange of two matrix entries through `tmp_el` -/
def swap (A : Nat → Nat → K) (i j k l : Nat) : Nat → Nat → K :=
  let t := A i j
  let A1 : Nat → Nat → K := fun a b => if a = i ∧ b = j then A k l else A a b
  fun a b => if a = k ∧ b = l then t else A1 a b

/-- search of the pivot, ocp_nlp_reg_project_reduc_hess.c:418-428: returns `(pivot, idx)` -/
def findPivot (A : Nat → Nat → K) (u jj : Nat) : K × Nat :=
  ((List.range u).filter fun kk => jj + 1 ≤ kk).foldl
    (fun p kk => if A kk kk < p.1 ∧ -p.1 < A kk kk then (A kk kk, kk) else p) (A jj jj, jj)

/-- symmetric permutation, ocp_nlp_reg_project_reduc_hess.c:430-446 -/
def permute (A : Nat → Nat → K) (n jj idx : Nat) : Nat → Nat → K :=
  if idx ≠ jj then
    let A1 := ((List.range idx).filter fun kk => jj ≤ kk).foldl
      (fun B kk => swap B kk jj (idx - jj) (idx - kk)) A
    ((List.range n).filter fun kk => idx + 1 ≤ kk).foldl (fun B kk => swap B kk jj kk idx) A1
  else A

/-- replacement of a small pivot, ocp_nlp_reg_project_reduc_hess.c:449-456 -/
def guardPivot (o : Opts K) (p : K) : K :=
  if p < o.minPivot ∧ -o.minPivot < p then (if p < 0 then o.minPivot else -o.minPivot) else p

/-- elimination of column `jj` in the lower triangle, ocp_nlp_reg_project_reduc_hess.c:457-465.
Simplification: the two nested loops are written as one simultaneous update; column `jj` is only read. -/
def elim (n : Nat) (p : K) (jj : Nat) (A : Nat → Nat → K) : Nat → Nat → K := fun l k =>
  if jj + 1 ≤ k ∧ k ≤ l ∧ l < n then A l k - A l jj * (1 / p * A k jj) else A l k

/-- one pass of the loop over `jj`, ocp_nlp_reg_project_reduc_hess.c:413-466 -/
def elimStep (o : Opts K) (n u : Nat) (A : Nat → Nat → K) (jj : Nat) : Nat → Nat → K :=
  let A1 := if o.pivoting then permute A n jj (findPivot A u jj).2 else A
  elim n (guardPivot o (A1 jj jj)) jj A1

/-- `L3` before the elimination: the first `nu` columns of `L` (before regularisation), zero elsewhere,
ocp_nlp_reg_project_reduc_hess.c:372-373 -/
def stL3 (D : Data K) (ss : Nat) (s : Mem K) : Nat → Nat → K := fun i j =>
  if j < D.nu ss then stL D ss s i j else 0

/-- `L3` after the elimination, ocp_nlp_reg_project_reduc_hess.c:411-467 -/
def stSchur (o : Opts K) (D : Data K) (ss : Nat) (s : Mem K) : Nat → Nat → K :=
  (List.range (D.nu ss)).foldl (elimStep o (D.nux ss) (D.nu ss)) (stL3 D ss s)

/-- the trailing `nx` block of a matrix with `nu` leading rows and columns -/
def tail (u : Nat) (A : Nat → Nat → K) : Nat → Nat → K := fun i j => A (u + i) (u + j)

/-- the Hessian at the end of the pass, ocp_nlp_reg_project_reduc_hess.c:471-478 -/
def stH2 (E : Ext K) (o : Opts K) (D : Data K) (ss : Nat) (s : Mem K) : Nat → Nat → K :=
  let u := D.nu ss
  let x := D.nx ss
  if stReg E o u (stL D ss s) then
    gead x x 1 (tail u (stSchur o D ss s)) (gead x x (-1) (tail u (stL2 E o D ss s)) (stH1 E o D ss s) u u) u u
  else stH1 E o D ss s

/-- `P` at the end of the pass, ocp_nlp_reg_project_reduc_hess.c:470-485 -/
def stP (E : Ext K) (o : Opts K) (D : Data K) (ss : Nat) (s : Mem K) : Nat → Nat → K :=
  let u := D.nu ss
  let x := D.nx ss
  let P0 : Nat → Nat → K := fun i j => if i < x ∧ j < x then stL1 E o D ss s (u + i) (u + j) else s.P i j
  let P1 := if stReg E o u (stL D ss s) then gead x x 1 (tail u (stSchur o D ss s)) P0 0 0
    else gead x x 1 (tail u (stL2 E o D ss s)) P0 0 0
  trtrL x P1

/-- one pass of the loop over the stages `N … 1`, ocp_nlp_reg_project_reduc_hess.c:352-486 -/
def stage (E : Ext K) (o : Opts K) (D : Data K) (s : Mem K) (ss : Nat) : Mem K where
  RSQ := Function.update s.RSQ ss (stH2 E o D ss s)
  P := stP E o D ss s
  L2 := stL2 E o D ss s

/-- the first stage, ocp_nlp_reg_project_reduc_hess.c:488-504 -/
def stage0 (E : Ext K) (o : Opts K) (D : Data K) (s : Mem K) : Mem K :=
  let n := D.nux 0
  let L2 := pack n (stRec E o n (stL D 0 s)) s.L2
  { s with RSQ := Function.update s.RSQ 0 (gead n n 1 L2 (s.RSQ 0) 0 0), L2 := L2 }

/-- the loop after `t` passes: `ii = -1 … t-2`, `ss = N - ii - 1` -/
def run (E : Ext K) (o : Opts K) (D : Data K) (s : Mem K) (t : Nat) : Mem K :=
  (List.range t).foldl (fun s k => stage E o D s (D.N - k)) s

/-- `ocp_nlp_reg_project_reduc_hess_regularize`, ocp_nlp_reg_project_reduc_hess.c:331-519.
For `N = 0` the code reads `nx[1]` and `BAbt[0]`, which do not exist; the model (whose `stL` then takes
the terminal branch) is meant for `1 ≤ N`. -/
def regularize (E : Ext K) (o : Opts K) (D : Data K) (s : Mem K) : Mem K :=
  stage0 E o D (run E o D s D.N)

end Acados.ReducHess
