import Mathlib.Logic.Function.Basic
import Mathlib.Algebra.Ring.Defs
/-!
# Conversion between CasADi buffers and acados arguments (`acados/utils/external_function_generic.c`)

A sparsity array `sp` is the raw CasADi array `[nrow, ncol, colind[0..ncol], row[0..nnz-1]]`, or `[nrow, ncol, 1]`
for a dense matrix (entries beyond the end are never used for valid arrays).  A CasADi buffer that is read is a list: reading past its end is the distinct outcome
`none`.  Destinations are memories `ι → K` with addresses `ι` (an index for `double *` and vectors, a row/column
pair for `blasfeo_dmat`).  `double` is an arbitrary ring with a zero.
-/
namespace Acados.Casadi
variable {K : Type*} [Zero K]

/-- number of rows, `sparsity[0]` -/
def nrow (sp : Nat → Nat) : Nat := sp 0
/-- number of columns, `sparsity[1]` -/
def ncol (sp : Nat → Nat) : Nat := sp 1
/-- `idxcol = sparsity + 2` -/
def idxcol (sp : Nat → Nat) (j : Nat) : Nat := sp (2 + j)
/-- `row = sparsity + ncol + 3` -/
def row (sp : Nat → Nat) (k : Nat) : Nat := sp (ncol sp + 3 + k)

/-- `casadi_nnz`, lines 208-231 (non-null pointer; natural subtraction, exact for nondecreasing column offsets) -/
def nnz (sp : Nat → Nat) : Nat :=
  if sp 2 ≠ 0 then nrow sp * ncol sp
  else (List.range (ncol sp)).foldl (fun n i => n + (idxcol sp (i + 1) - idxcol sp i)) 0

/-- `casadi_is_dense`, lines 234-278 -/
def isDense (sp : Nat → Nat) : Bool :=
  if nrow sp = 0 ∨ ncol sp = 0 then true
  else if sp 2 ≠ 0 then true
  else (List.range (ncol sp)).all fun j =>
    decide (idxcol sp (j + 1) - idxcol sp j = nrow sp) &&
    (List.range' (idxcol sp j) (idxcol sp (j + 1) - idxcol sp j)).all fun k => decide (row sp k + j * nrow sp = k)

section
variable {ι : Type*} [DecidableEq ι]

/-- one iteration of the innermost loop: `*addr(row[idx], jj) = ptr[0]; ptr++` -/
def putOne (sp : Nat → Nat) (inp : List K) (addr : Nat → Nat → ι) (j : Nat) (s : Option (Nat × (ι → K))) (k : Nat) :
    Option (Nat × (ι → K)) :=
  s.bind fun t => (inp[t.1]?).map fun v => (t.1 + 1, Function.update t.2 (addr (row sp k) j) v)

/-- the loops "copy nonzeros" of the `casadi_to_*` routines (for example lines 307-315); the loop over
`idx = idxcol[jj]; idx != idxcol[jj+1]` is written for nondecreasing `idxcol` -/
def scatter (sp : Nat → Nat) (inp : List K) (addr : Nat → Nat → ι) (out : ι → K) : Option (ι → K) :=
  ((List.range (ncol sp)).foldl (fun s j =>
    (List.range' (idxcol sp j) (idxcol sp (j + 1) - idxcol sp j)).foldl (putOne sp inp addr j) s) (some (0, out))).map
    Prod.snd

/-- one iteration: `ptr[0] = *addr(row[idx], jj); ptr++` -/
def getOne (sp : Nat → Nat) (mem : ι → K) (addr : Nat → Nat → ι) (j : Nat) (s : Nat × (Nat → K)) (k : Nat) :
    Nat × (Nat → K) :=
  (s.1 + 1, Function.update s.2 s.1 (mem (addr (row sp k) j)))

/-- the loops "copy nonzeros" of the `*_to_casadi` routines (for example lines 345-352) -/
def gather (sp : Nat → Nat) (mem : ι → K) (addr : Nat → Nat → ι) (out : Nat → K) : Nat → K :=
  ((List.range (ncol sp)).foldl (fun s j =>
    (List.range' (idxcol sp j) (idxcol sp (j + 1) - idxcol sp j)).foldl (getOne sp mem addr j) s) (0, out)).2

/-- fill with zeros before copying nonzeros -/
def zeroBlock (nr nc : Nat) (addr : Nat → Nat → ι) (out : ι → K) : ι → K :=
  (List.range nc).foldl (fun o j => (List.range nr).foldl (fun o i => Function.update o (addr i j) 0) o) out

/-- dense copy into the destination: `blasfeo_pack_dmat(nrow, ncol, in, nrow, out)` and the loops copying
`in[i + j * ld]` -/
def packBlock (nr nc ld : Nat) (inp : List K) (addr : Nat → Nat → ι) (out : ι → K) : Option (ι → K) :=
  (List.range nc).foldl (fun o j => (List.range nr).foldl (fun o i =>
    o.bind fun m => (inp[i + j * ld]?).map fun v => Function.update m (addr i j) v) o) (some out)

/-- dense copy out of the source: `blasfeo_unpack_dmat(nrow, ncol, in, out, nrow)` -/
def unpackBlock (nr nc ld : Nat) (mem : ι → K) (addr : Nat → Nat → ι) (out : Nat → K) : Nat → K :=
  (List.range nc).foldl (fun o j => (List.range nr).foldl (fun o i =>
    Function.update o (i + j * ld) (mem (addr i j))) o) out
end

/-- address in a column-major array with leading dimension `ld` -/
def cm (ld i j : Nat) : Nat := i + j * ld

/-- `d_cvt_casadi_to_colmaj`, lines 284-320; the dense branch copies `ncol * nrow` numbers in order -/
def toColmaj (sp : Nat → Nat) (dense : Bool) (inp : List K) (out : Nat → K) : Option (Nat → K) :=
  if nrow sp = 0 ∨ ncol sp = 0 then some out
  else if dense then packBlock (ncol sp * nrow sp) 1 0 inp (fun i _ => i) out
  else scatter sp inp (cm (nrow sp)) (zeroBlock (nrow sp) (ncol sp) (cm (nrow sp)) out)

/-- `d_cvt_colmaj_to_casadi`, lines 324-356 -/
def fromColmaj (sp : Nat → Nat) (dense : Bool) (mem : Nat → K) (out : Nat → K) : Nat → K :=
  if nrow sp = 0 ∨ ncol sp = 0 then out
  else if dense then unpackBlock (ncol sp * nrow sp) 1 0 mem (fun i _ => i) out
  else gather sp mem (cm (nrow sp)) out

/-- `d_cvt_casadi_to_dmat_args`, lines 585-622; `d_cvt_casadi_to_dmat` (lines 360-393) is the case `ai = aj = 0` -/
def toDmat (sp : Nat → Nat) (dense : Bool) (ai aj : Nat) (inp : List K) (out : Nat × Nat → K) : Option (Nat × Nat → K) :=
  let addr := fun i j => (ai + i, aj + j)
  if nrow sp = 0 ∨ ncol sp = 0 then some out
  else if dense then packBlock (nrow sp) (ncol sp) (nrow sp) inp addr out
  else scatter sp inp addr (zeroBlock (nrow sp) (ncol sp) addr out)

/-- `d_cvt_dmat_args_to_casadi`, lines 626-660; `d_cvt_dmat_to_casadi` (lines 397-427) is the case `ai = aj = 0` -/
def fromDmat (sp : Nat → Nat) (dense : Bool) (ai aj : Nat) (mem : Nat × Nat → K) (out : Nat → K) : Nat → K :=
  let addr := fun i j => (ai + i, aj + j)
  if nrow sp = 0 ∨ ncol sp = 0 then out
  else if dense then unpackBlock (nrow sp) (ncol sp) (nrow sp) mem addr out
  else gather sp mem addr out

/-- result of a routine that may end the process (`exit(1)`) or read past the end of a buffer -/
inductive Res (α : Type*)
  | ok (a : α)
  | exit
  | overrun

/-- an overrun is the only failure of the copy routines -/
def Res.of {α : Type*} : Option α → Res α
  | some a => .ok a
  | none => .overrun

/-- `d_cvt_casadi_to_dvec_args`, lines 664-705; `d_cvt_casadi_to_dvec` (lines 431-467) is the case `xi = 0`.
The row indices of a column vector start at `sparsity + 1 + 3`; the single column loop is the general one for
`ncol = 1`. -/
def toDvec (sp : Nat → Nat) (dense : Bool) (xi : Nat) (inp : List K) (out : Nat → K) : Res (Nat → K) :=
  let addr := fun i _ => xi + i
  if ¬ (ncol sp = 1 ∨ nrow sp = 0 ∨ ncol sp = 0) then .exit
  else if nrow sp = 0 then .ok out
  else if dense then .of (packBlock (nrow sp) 1 0 inp addr out)
  else .of (scatter sp inp addr (zeroBlock (nrow sp) 1 addr out))

/-- `d_cvt_dvec_args_to_casadi`, lines 709-746; `d_cvt_dvec_to_casadi` (lines 471-503) is the case `xi = 0` -/
def fromDvec (sp : Nat → Nat) (dense : Bool) (xi : Nat) (mem : Nat → K) (out : Nat → K) : Option (Nat → K) :=
  let addr := fun i _ => xi + i
  if ¬ (ncol sp = 1 ∨ nrow sp = 0 ∨ ncol sp = 0) then none
  else if nrow sp = 0 then some out
  else if dense then some (unpackBlock (nrow sp) 1 0 mem addr out)
  else some (gather sp mem addr out)

/-- `d_cvt_casadi_to_colmaj_args`, lines 507-543: in the dense branch the loop bounds of rows and columns are
exchanged and the input is read with leading dimension `ncol` (`A[ii + jj * lda] = in[ii + ncol * jj]` for `ii < ncol`,
`jj < nrow`) -/
def toColmajArgs (sp : Nat → Nat) (dense : Bool) (lda : Nat) (inp : List K) (out : Nat → K) : Option (Nat → K) :=
  if nrow sp = 0 ∨ ncol sp = 0 then some out
  else if dense then packBlock (ncol sp) (nrow sp) (ncol sp) inp (cm lda) out
  else scatter sp inp (cm lda) (zeroBlock (nrow sp) (ncol sp) (cm lda) out)

/-- `d_cvt_colmaj_args_to_casadi`, lines 547-581 -/
def fromColmajArgs (sp : Nat → Nat) (dense : Bool) (lda : Nat) (mem : Nat → K) (out : Nat → K) : Nat → K :=
  if nrow sp = 0 ∨ ncol sp = 0 then out
  else if dense then unpackBlock (ncol sp) (nrow sp) (ncol sp) mem (cm lda) out
  else gather sp mem (cm lda) out

end Acados.Casadi
