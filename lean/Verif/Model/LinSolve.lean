import Verif.Model.QpScaling
/-!
# Dense linear algebra helpers (`acados/utils/math.c`)

Column-major arrays `A[i + lda*j]` are functions `A i j` of row and column; this presupposes that the
leading dimension is at least the number of rows, as at all call sites (`lda = n`).  `double` is an
arbitrary ordered field.
-/
namespace Acados.Math
open Finset
variable {K : Type*} [Field K] [LinearOrder K]

/-- `idamax_3l`, math.c:168-188: index of the first entry of maximal absolute value among
`x 0 … x (n-1)`; the state is `(dmax, idmax)` -/
def idamax (n : Nat) (x : Nat → K) : Nat :=
  if n ≤ 1 then 0
  else
    ((List.range' 1 (n - 1)).foldl (fun (s : K × Nat) jj =>
      let dabs := if x jj > 0 then x jj else - x jj
      if dabs > s.1 then (dabs, jj) else s) ((if x 0 > 0 then x 0 else - x 0), 0)).2

/-- `dswap_3l` on two rows, math.c:190-204: all columns `c < n` of rows `p` and `q` are exchanged -/
def swapRows (n p q : Nat) (A : Nat → Nat → K) : Nat → Nat → K := fun i j =>
  if j < n then (if i = p then A q j else if i = q then A p j else A i j) else A i j

/-- state of `dgetf2_3l` -/
structure Lu (K : Type*) where
  A : Nat → Nat → K
  ipiv : Nat → Nat
  info : Nat

/-- pivot row of step `j`, math.c:243 -/
def pivRow (m j : Nat) (A : Nat → Nat → K) : Nat := j + idamax (m - j) (fun i => A (j + i) j)

/-- exchange and scaling for a nonzero pivot, math.c:245-265; `tiny` is the literal 2.22e-16 -/
def luScale (tiny : K) (m n j jp : Nat) (A : Nat → Nat → K) : Nat → Nat → K :=
  let A1 := if jp ≠ j then swapRows n j jp A else A
  let Ajj := A1 j j
  if j < m - 1 then
    if (if Ajj > 0 then Ajj else - Ajj) ≥ tiny then
      fun i k => if k = j ∧ j < i ∧ i < m then A1 i k * (1 / Ajj) else A1 i k
    else
      fun i k => if k = j ∧ j < i ∧ i < m then A1 i k / Ajj else A1 i k
  else A1

/-- `dger_3l` on the trailing block, math.c:206-228 and 271-276: `A i k += A i j * (-1 * A j k)`.
The double loop is written in closed form: it reads only row and column `j`, which it does not write. -/
def luTrail (m n j : Nat) (A : Nat → Nat → K) : Nat → Nat → K := fun i k =>
  if j < i ∧ i < m ∧ j < k ∧ k < n then A i k + A i j * (-1 * A j k) else A i k

/-- one step of `dgetf2_3l`, math.c:241-277 -/
def luStep (tiny : K) (m n : Nat) (s : Lu K) (j : Nat) : Lu K :=
  let jp := pivRow m j s.A
  if s.A jp j ≠ 0 then
    { A := luTrail m n j (luScale tiny m n j jp s.A)
      ipiv := Function.update s.ipiv j jp
      info := s.info }
  else
    { A := luTrail m n j s.A
      ipiv := Function.update s.ipiv j jp
      info := if s.info = 0 then j + 1 else s.info }

/-- `dgetf2_3l`, math.c:230-280 -/
def dgetf2 (tiny : K) (m n : Nat) (s : Lu K) : Lu K :=
  if m = 0 ∨ n = 0 then s else (List.range (min m n)).foldl (luStep tiny m n) s

/-- exchange of rows `i` and `ip` in the columns `lo ≤ k < hi`, math.c:305-310 and 326-331 -/
def swapCols (lo hi i ip : Nat) (B : Nat → Nat → K) : Nat → Nat → K := fun r k =>
  if lo ≤ k ∧ k < hi then (if r = i then B ip k else if r = ip then B i k else B r k) else B r k

/-- one pass over the rows `0 … k2-1` for a block of columns, math.c:300-313 and 319-333 -/
def laswpBlock (k2 : Nat) (ipiv : Nat → Nat) (lo hi : Nat) (B : Nat → Nat → K) : Nat → Nat → K :=
  (List.range k2).foldl (fun B i => if ipiv i ≠ i then swapCols lo hi i (ipiv i) B else B) B

/-- `dlaswp_3l` with `k1 = 0`, math.c:285-336: blocks of 32 columns, then the rest -/
def dlaswp (n k2 : Nat) (ipiv : Nat → Nat) (B : Nat → Nat → K) : Nat → Nat → K :=
  let n32 := n / 32 * 32
  let B1 := (List.range (n / 32)).foldl (fun B b => laswpBlock k2 ipiv (32 * b) (32 * b + 32) B) B
  if n32 ≠ n then laswpBlock k2 ipiv n32 n B1 else B1

/-- one step of the forward substitution for column entries, math.c:347-353: all rows `i > k`.
The inner loop is written in closed form (it reads row `k`, which it does not write). -/
def llnuStep (m n : Nat) (A : Nat → Nat → K) (B : Nat → Nat → K) (k : Nat) : Nat → Nat → K := fun i j =>
  if j < n ∧ k < i ∧ i < m then B i j - B k j * A i k else B i j

/-- `dtrsm_llnu_3l` (unit lower triangular), math.c:338-357.  The loop over the columns is interchanged
with the loop over `k`: columns are independent. -/
def dtrsmLlnu (m n : Nat) (A B : Nat → Nat → K) : Nat → Nat → K :=
  if m = 0 ∨ n = 0 then B else (List.range m).foldl (llnuStep m n A) B

/-- one step of the backward substitution, math.c:368-375 -/
def lunnStep (n : Nat) (A : Nat → Nat → K) (B : Nat → Nat → K) (k : Nat) : Nat → Nat → K := fun i j =>
  if j < n then
    if i = k then B k j / A k k
    else if i < k then B i j - (B k j / A k k) * A i k
    else B i j
  else B i j

/-- `dtrsm_lunn_3l` (upper triangular), math.c:359-379: `k` runs from `m-1` down to `0` -/
def dtrsmLunn (m n : Nat) (A B : Nat → Nat → K) : Nat → Nat → K :=
  if m = 0 ∨ n = 0 then B else (List.range m).reverse.foldl (lunnStep n A) B

/-- `dgetrs_3l`, math.c:381-397 -/
def dgetrs (n nrhs : Nat) (A : Nat → Nat → K) (ipiv : Nat → Nat) (B : Nat → Nat → K) :
    Nat → Nat → K :=
  if n = 0 ∨ nrhs = 0 then B
  else dtrsmLunn n nrhs A (dtrsmLlnu n nrhs A (dlaswp nrhs n ipiv B))

/-- `dgesv_3l`, math.c:399-411: returns the factorisation and the new right-hand side -/
def dgesv (tiny : K) (n nrhs : Nat) (s : Lu K) (B : Nat → Nat → K) : Lu K × (Nat → Nat → K) :=
  let f := dgetf2 tiny n n s
  if f.info = 0 then (f, dgetrs n nrhs f.A f.ipiv B) else (f, B)

/-- `neville_algorithm`, math.c:1172-1186: for `d = n-i+1` (`i = n, …, 1`) the entries `j = 0 … i-1` of
`Q` are overwritten in increasing order -/
def nevilleInner (xx : K) (x : Nat → K) (d : Nat) (Q : Nat → K) (j : Nat) : Nat → K :=
  Function.update Q j (((xx - x j) * Q (j + 1) - (xx - x (j + d)) * Q j) / (x (j + d) - x j))
def neville (xx : K) (n : Nat) (x Q : Nat → K) : K :=
  ((List.range n).foldl (fun Q t =>
    (List.range (n - t)).foldl (nevilleInner xx x (t + 1)) Q) Q) 0

end Acados.Math
