import Verif.Model.LinSolve
/-!
# Matrix exponential (`acados/utils/math.c`)

Same conventions as `Model/LinSolve.lean`; all matrices are square of size `n` (`row` in the code) and
only the entries with both indices below `n` are meaningful.
-/
namespace Acados.Math
open Finset
variable {K : Type*} [Field K] [LinearOrder K]

/-- `dgemm_nn_3l` for square matrices, math.c:64-81 (the output is a different array at all call sites) -/
def gemm (n : Nat) (A B : Nat → Nat → K) : Nat → Nat → K := fun i j => ∑ k ∈ range n, A i k * B k j
/-- `daxpy_3l`, math.c:135-142: `Y += c * X` -/
def axpy (c : K) (X Y : Nat → Nat → K) : Nat → Nat → K := fun i j => Y i j + c * X i j
/-- `dscal_3l`, math.c:144-151: `X *= c` -/
def scal (c : K) (X : Nat → Nat → K) : Nat → Nat → K := fun i j => X i j * c
/-- the array `A0` of `padeapprox`, math.c:461-463 -/
def eye : Nat → Nat → K := fun i j => if i = j then 1 else 0
def zeroM : Nat → Nat → K := fun _ _ => 0

/-- the arrays `U`, `V` of `padeapprox` -/
structure UV (K : Type*) where
  U : Nat → Nat → K
  V : Nat → Nat → K

/-- branch `m == 3`, math.c:458-489.  `temp0` is the content of the array `temp`, which is allocated but
not initialised before it is multiplied by 0. -/
def pade3 (n : Nat) (temp0 A : Nat → Nat → K) : UV K :=
  let A2 := gemm n A A
  let temp := axpy 60 eye (axpy 1 A2 (scal 0 temp0))
  { U := gemm n A temp
    V := axpy 120 eye (axpy 12 A2 (scal 0 zeroM)) }

/-- branch `m == 5`, math.c:490-528 -/
def pade5 (n : Nat) (A : Nat → Nat → K) : UV K :=
  let A2 := gemm n A A
  let A4 := gemm n A2 A2
  let temp := axpy 15120 eye (axpy 420 A2 A4)
  { U := gemm n A temp
    V := axpy 30240 eye (axpy 3360 A2 (scal 30 A4)) }

/-- branch `m == 7`, math.c:529-581 -/
def pade7 (n : Nat) (A : Nat → Nat → K) : UV K :=
  let A2 := gemm n A A
  let A4 := gemm n A2 A2
  let A6 := gemm n A4 A2
  let temp := axpy 1 A6 (axpy 1512 A4 (axpy 8648640 eye (axpy 277200 A2 (scal 0 zeroM))))
  { U := gemm n A temp
    V := axpy 56 A6 (axpy 25200 A4 (axpy 17297280 eye (axpy 1995840 A2 (scal 0 zeroM)))) }

/-- branch `m == 9`, math.c:582-641 -/
def pade9 (n : Nat) (A : Nat → Nat → K) : UV K :=
  let A2 := gemm n A A
  let A4 := gemm n A2 A2
  let A6 := gemm n A4 A2
  let A8 := gemm n A6 A2
  let temp := axpy 3960 A6 (axpy 2162160 A4 (axpy 8821612800 eye (axpy 302702400 A2 A8)))
  { U := gemm n A temp
    V := axpy 110880 A6 (axpy 30270240 A4 (axpy 17643225600 eye (axpy 2075673600 A2 (scal 90 A8)))) }

/-- branch `m == 13`, math.c:642-721.  The statement `dscal_3l(row2, c[8], V)` (line 702) scales `V`, which
is zero and is overwritten later, not `temp`. -/
def pade13 (n : Nat) (A : Nat → Nat → K) : UV K :=
  let A2 := gemm n A A
  let A4 := gemm n A2 A2
  let A6 := gemm n A4 A2
  let U0 := axpy 1 A6 (axpy 16380 A4 (scal 40840800 A2))
  let temp := axpy 32382376266240000 eye (axpy 1187353796428800 A2 (axpy 10559470521600 A4
    (axpy 33522128640 A6 (gemm n A6 U0))))
  let temp2 := axpy 960960 A4 (axpy 182 A6 A2)
  { U := gemm n A temp
    V := axpy 64764752532480000 eye (axpy 7771770303897600 A2 (axpy 129060195264000 A4
      (axpy 670442572800 A6 (gemm n A6 temp2)))) }

/-- selection of the branch, math.c:458-726; any other degree exits the program -/
def padeUV (m n : Nat) (temp0 A : Nat → Nat → K) : Option (UV K) :=
  if m = 3 then some (pade3 n temp0 A)
  else if m = 5 then some (pade5 n A)
  else if m = 7 then some (pade7 n A)
  else if m = 9 then some (pade9 n A)
  else if m = 13 then some (pade13 n A)
  else none

/-- `padeapprox`, math.c:445-747: `A := V + U`, `D := V - U`, then `dgesv_3l` on `D` and `A`; `info` is not
looked at.  `tiny` as in `luScale`. -/
def padeapprox (tiny : K) (m n : Nat) (temp0 A : Nat → Nat → K) : Option (Nat → Nat → K) :=
  (padeUV m n temp0 A).map fun uv =>
    (dgesv tiny n n ⟨axpy (-1) uv.U uv.V, fun _ => 0, 0⟩ (axpy 1 uv.U uv.V)).2

/-- `onenorm`, math.c:414-433 (square matrix); `|x|` is `fabs` -/
def onenormCol (n : Nat) (A : Nat → Nat → K) (j : Nat) : K :=
  (List.range' 1 (n - 1)).foldl (fun t i => t + |A i j|) |A 0 j|
def onenorm (n : Nat) (A : Nat → Nat → K) : K :=
  (List.range n).foldl (fun mx j =>
    let temp := onenormCol n A j
    if j = 0 then temp else if temp > mx then temp else mx) 0

/-- the table `theta`, math.c:754-755 (the decimal literals, not their nearest doubles) -/
def theta (i : Nat) : K :=
  if i = 0 then 1495585217958292 / 10 ^ 17
  else if i = 1 then 2539398330063230 / 10 ^ 16
  else if i = 2 then 9504178996162932 / 10 ^ 16
  else if i = 3 then 2097847961257068 / 10 ^ 15
  else 5371920351148152 / 10 ^ 15

/-- the squaring loop, math.c:784-791 -/
def squarings (n : Nat) : Nat → (Nat → Nat → K) → (Nat → Nat → K)
  | 0, A => A
  | s + 1, A => squarings n s (gemm n A A)

/-- `expm`, math.c:749-794.  `fx` is `frexp`. -/
def expm (tiny : K) (fx : K → K × Int) (n : Nat) (temp0 A : Nat → Nat → K) : Option (Nat → Nat → K) :=
  let normA := onenorm n A
  if normA ≤ theta 4 then
    if normA ≤ theta 0 then padeapprox tiny 3 n temp0 A
    else if normA ≤ theta 1 then padeapprox tiny 5 n temp0 A
    else if normA ≤ theta 2 then padeapprox tiny 7 n temp0 A
    else if normA ≤ theta 3 then padeapprox tiny 9 n temp0 A
    else padeapprox tiny 13 n temp0 A
  else
    let r := fx (normA / theta 4)
    let s : Int := r.2 - (if r.1 = 1 / 2 then 1 else 0)
    (padeapprox tiny 13 n temp0 (scal ((2 : K) ^ (-s)) A)).map (squarings n s.toNat)

end Acados.Math
