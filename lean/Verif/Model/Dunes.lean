import Verif.Spec.Dunes
/-!
# The qpDUNES interface, `acados/ocp_qp/ocp_qp_qpdunes.c`

qpDUNES itself is external (the submodule is empty).  How it reads its arguments is part of the trusted base: matrices by
rows, stage variables `[x; u]`, `H = [Q S; Sᵀ R]`, a null pointer leaves the data as they are; multipliers as in
`Spec/Dunes.lean`, with the sign of the acados multipliers.  The arrays of the workspace are functions that keep
the entries that are not written.
-/
namespace Acados.Dunes
open Acados.QpScal (Stage Qp Sol)
variable {K : Type*} [Field K] [LinearOrder K]

/-! ### Copies between blasfeo and arrays -/

/-- a list of assignments, in order -/
def assigns {α : Type*} (l : List α) (adr : α → Nat) (val : α → K) (buf : Nat → K) : Nat → K :=
  l.foldl (fun (b : Nat → K) a => Function.update b (adr a) (val a)) buf

/-- all pairs `(i, j)`, column by column -/
def pairs (m n : Nat) : List (Nat × Nat) := (List.range n).flatMap fun j => (List.range m).map fun i => (i, j)

/-- `blasfeo_unpack_dmat(m, n, M, ai, aj, &buf[off], lda)` -/
def unpackMat (m n : Nat) (M : Nat → Nat → K) (ai aj off lda : Nat) (buf : Nat → K) : Nat → K :=
  assigns (pairs m n) (fun a => off + (a.1 + a.2 * lda)) (fun a => M (ai + a.1) (aj + a.2)) buf

/-- `blasfeo_unpack_tran_dmat(m, n, M, ai, aj, &buf[off], lda)` -/
def unpackTran (m n : Nat) (M : Nat → Nat → K) (ai aj off lda : Nat) (buf : Nat → K) : Nat → K :=
  assigns (pairs m n) (fun a => off + (a.2 + a.1 * lda)) (fun a => M (ai + a.1) (aj + a.2)) buf

/-- `blasfeo_unpack_dvec(m, v, ai, &buf[off], 1)` -/
def unpackVec (m : Nat) (v : Nat → K) (ai off : Nat) (buf : Nat → K) : Nat → K :=
  assigns (List.range m) (fun i => off + i) (fun i => v (ai + i)) buf

/-- `blasfeo_dtrtr_l(m, M, o, o, M, o, o)`: the lower triangle is copied to the upper one -/
def fullSym (m o : Nat) (M : Nat → Nat → K) : Nat → Nat → K :=
  fun i j => if o ≤ i ∧ i < j ∧ j < o + m then M j i else M i j

/-! ### The pieces of an interval -/

/-- `form_H`, lines 405-425; also returns the matrix of the caller, which is changed -/
def formH (nx nu : Nat) (M : Nat → Nat → K) (H : Nat → K) : (Nat → K) × (Nat → Nat → K) :=
  let M := fullSym nx nu M
  let H := unpackMat nx nx M nu nu 0 (nx + nu) H
  let M := fullSym nu 0 M
  let H := unpackMat nu nu M 0 0 (nx * (nx + nu) + nx) (nx + nu) H
  let H := unpackMat nx nu M nu 0 (nx * (nx + nu)) (nx + nu) H
  (unpackTran nx nu M nu 0 nx (nx + nu) H, M)

/-- `form_RSQ`, lines 429-455: `R`, `S`, `Q`, and the matrix of the caller -/
def formRSQ (nx nu : Nat) (M : Nat → Nat → K) (R S Q : Nat → K) : (Nat → K) × (Nat → K) × (Nat → K) × (Nat → Nat → K) :=
  let M := fullSym nx nu M
  let Q := unpackMat nx nx M nu nu 0 nx Q
  let M := fullSym nu 0 M
  let R := unpackMat nu nu M 0 0 0 nu R
  (R, unpackTran nx nu M nu 0 0 nu S, Q, M)

/-- `form_g`, lines 459-469 -/
def formG (nx nu : Nat) (rq : Nat → K) (g : Nat → K) : Nat → K :=
  unpackVec nu rq 0 nx (unpackVec nx rq nu 0 g)

/-- `form_dynamics`, lines 473-491 -/
def formDynamics (nx nu : Nat) (BAbt : Nat → Nat → K) (b : Nat → K) (ABt c : Nat → K) : (Nat → K) × (Nat → K) :=
  (unpackMat nu nx BAbt 0 0 nx (nx + nu) (unpackMat nx nx BAbt nu 0 0 (nx + nu) ABt), unpackVec nx b 0 0 c)

/-- position in `[x; u]` of entry `r` of `[u; x]`, lines 505-515 -/
def zpos (nx nu r : Nat) : Nat := if r < nu then r + nx else r - nu

/-- `form_bounds`, lines 495-517 -/
def formBounds (inf : K) (nx nu nb ng : Nat) (idxb : Nat → Nat) (d : Nat → K) (zLow zUpp : Nat → K) : (Nat → K) × (Nat → K) :=
  let zLow := assigns (List.range (nx + nu)) id (fun _ => -inf) zLow
  let zUpp := assigns (List.range (nx + nu)) id (fun _ => inf) zUpp
  (assigns (List.range nb) (fun i => zpos nx nu (idxb i)) d zLow,
   assigns (List.range nb) (fun i => zpos nx nu (idxb i)) (fun i => - d (i + nb + ng)) zUpp)

/-- `form_inequalities`, lines 521-537 -/
def formIneq (nx nu nb ng : Nat) (DCt : Nat → Nat → K) (d : Nat → K) (Ct lc uc : Nat → K) : (Nat → K) × (Nat → K) × (Nat → K) :=
  let Ct := unpackMat nx ng DCt nu 0 0 (nx + nu) Ct
  let Ct := unpackMat nu ng DCt 0 0 nx (nx + nu) Ct
  let uc := unpackVec ng d (2 * nb + ng) 0 uc
  (Ct, unpackVec ng d nb 0 lc, (List.range ng).foldl (fun (u : Nat → K) i => Function.update u i (-u i)) uc)

/-! ### qpDUNES reads its arguments (trusted) -/

/-- a matrix given by rows -/
def byRows (ld : Nat) (a : Nat → K) : Nat → Nat → K := fun i j => a (i * ld + j)

/-- `H = [Q S; Sᵀ R]`; no `S`: zero -/
def hessOf (nx nu : Nat) (Q R : Nat → K) (S : Option (Nat → K)) : Nat → Nat → K := fun i j =>
  if i < nx then
    if j < nx then Q (i * nx + j) else match S with
      | some S => S (i * nu + (j - nx))
      | none => 0
  else if j < nx then match S with
      | some S => S (j * nu + (i - nx))
      | none => 0
  else R ((i - nx) * nu + (j - nx))

/-! ### The state of the interface -/

/-- the arrays of the workspace -/
structure Work (K : Type*) where
  (H Q R S g ABt b Ct lc uc zLow zUpp : Nat → K)

/-- options: stage solver is clipping; linear MPC; the number for infinity.  `opts_set` (lines 211-255) reaches neither of
the first two; the defaults are `false` (lines 152, 155). -/
structure DOpts (K : Type*) where
  clip : Bool
  linear : Bool
  inf : K

/-- the memory: the data stored by qpDUNES, `firstRun`, `status` -/
structure DMem (K : Type*) where
  st : Nat → DStage K
  firstRun : Bool
  status : Int

/-- outcome: a raw code of qpDUNES is returned (`update_memory` failed), or everything is stored, or undefined behaviour -/
inductive Upd (α : Type*) | ok (a : α) | code (c : Int) (a : α) | ub

/-- `check_stage_qp_solver`, lines 66-121: true if clipping is not possible -/
def needsQpoases (q : Qp K) : Bool :=
  (List.range (q.N + 1)).any (fun k => decide ((q.st k).ng ≠ 0)) ||
  (List.range q.N).any (fun k => (List.range (q.nx 0)).any fun i => (List.range (q.nu 0)).any fun j =>
    decide ((q.st k).H (i + q.nu 0) j ≠ 0)) ||
  (List.range (q.N + 1)).any (fun k => (List.range (q.nx 0)).any fun i => (List.range (q.nx 0)).any fun j =>
    let nu := if k = q.N then 0 else q.nu 0
    decide (i ≠ j) && decide ((q.st k).H (i + nu) (j + nu) ≠ 0)) ||
  (List.range q.N).any (fun k => (List.range (q.nu 0)).any fun i => (List.range (q.nu 0)).any fun j =>
    decide (i ≠ j) && decide ((q.st k).H i j ≠ 0))

/-- lines 611-616: both entries of the terminal Hessian get `1e-8` -/
def addEps (eps : K) (H : Nat → Nat → K) : Nat → Nat → K :=
  fun i j => if (i = 0 ∧ j = 1) ∨ (i = 1 ∧ j = 0) then H i j + eps else H i j

/-- lines 611-616; the matrix has `nx` columns, column 1 must exist -/
def perturb (eps : K) (q : Qp K) : Option (Qp K) :=
  if q.nx q.N < 2 then none
  else some { q with st := Function.update q.st q.N { q.st q.N with H := addEps eps (q.st q.N).H } }

/-- one regular interval in the first call, lines 619-655: what qpDUNES stores, the workspace, the matrix of the caller -/
def setupStage (o : DOpts K) (nx nu : Nat) (s : Stage K) (w : Work K) : DStage K × Work K × (Nat → Nat → K) :=
  let (R, S, Q, M) := formRSQ nx nu s.H w.R w.S w.Q
  let g := formG nx nu s.g w.g
  let (zl, zu) := formBounds o.inf nx nu s.nb s.ng s.idxb s.d w.zLow w.zUpp
  let (ABt, b) := formDynamics nx nu s.BAbt s.b w.ABt w.b
  let (Ct, lc, uc) := if !o.clip && decide (s.ng ≠ 0) then formIneq nx nu s.nb s.ng s.DCt s.d w.Ct w.lc w.uc else (w.Ct, w.lc, w.uc)
  (⟨hessOf nx nu Q R (if o.clip then none else some S), g, byRows (nx + nu) ABt, b, zl, zu, byRows (nx + nu) Ct, lc, uc⟩,
   { w with R := R, S := S, Q := Q, g := g, zLow := zl, zUpp := zu, ABt := ABt, b := b, Ct := Ct, lc := lc, uc := uc }, M)

/-- the last interval in the first call, lines 656-674 -/
def setupLast (o : DOpts K) (nx : Nat) (s : Stage K) (w : Work K) : DStage K × Work K × (Nat → Nat → K) :=
  let (zl, zu) := formBounds o.inf nx 0 s.nb s.ng s.idxb s.d w.zLow w.zUpp
  let (R, S, Q, M) := formRSQ nx 0 s.H w.R w.S w.Q
  let g := formG nx 0 s.g w.g
  let (Ct, lc, uc) := if s.ng ≠ 0 then formIneq nx 0 s.nb s.ng s.DCt s.d w.Ct w.lc w.uc else (w.Ct, w.lc, w.uc)
  (⟨byRows nx Q, g, fun _ _ => 0, fun _ => 0, zl, zu, byRows nx Ct, lc, uc⟩,
   { w with R := R, S := S, Q := Q, g := g, zLow := zl, zUpp := zu, Ct := Ct, lc := lc, uc := uc }, M)

/-- one regular interval in later calls, lines 704-735 -/
def updateStage (o : DOpts K) (nx nu : Nat) (s : Stage K) (old : DStage K) (w : Work K) : DStage K × Work K × (Nat → Nat → K) :=
  let (H, M) := formH nx nu s.H w.H
  let g := formG nx nu s.g w.g
  let (ABt, b) := formDynamics nx nu s.BAbt s.b w.ABt w.b
  let (zl, zu) := formBounds o.inf nx nu s.nb s.ng s.idxb s.d w.zLow w.zUpp
  let w := { w with H := H, g := g, ABt := ABt, b := b, zLow := zl, zUpp := zu }
  if s.ng = 0 then (⟨byRows (nx + nu) H, g, byRows (nx + nu) ABt, b, zl, zu, old.D, old.dLow, old.dUpp⟩, w, M)
  else
    let (Ct, lc, uc) := formIneq nx nu s.nb s.ng s.DCt s.d w.Ct w.lc w.uc
    (⟨byRows (nx + nu) H, g, byRows (nx + nu) ABt, b, zl, zu, byRows (nx + nu) Ct, lc, uc⟩, { w with Ct := Ct, lc := lc, uc := uc }, M)

/-- the last interval in later calls, lines 736-761 -/
def updateLast (o : DOpts K) (nx : Nat) (s : Stage K) (old : DStage K) (w : Work K) : DStage K × Work K × (Nat → Nat → K) :=
  let (zl, zu) := formBounds o.inf nx 0 s.nb s.ng s.idxb s.d w.zLow w.zUpp
  let (R, S, Q, M) := formRSQ nx 0 s.H w.R w.S w.Q
  let g := formG nx 0 s.g w.g
  let w := { w with R := R, S := S, Q := Q, g := g, zLow := zl, zUpp := zu }
  if s.ng = 0 then (⟨byRows nx Q, g, old.C, old.c, zl, zu, old.D, old.dLow, old.dUpp⟩, w, M)
  else
    let (Ct, lc, uc) := formIneq nx 0 s.nb s.ng s.DCt s.d w.Ct w.lc w.uc
    (⟨byRows nx Q, g, old.C, old.c, zl, zu, byRows nx Ct, lc, uc⟩, { w with Ct := Ct, lc := lc, uc := uc }, M)

/-- store one interval: memory, workspace and the QP of the caller, whose Hessian is changed -/
def storeStage (k : Nat) (r : DStage K × Work K × (Nat → Nat → K)) (a : DMem K × Work K × Qp K) : DMem K × Work K × Qp K :=
  ({ a.1 with st := Function.update a.1.st k r.1 }, r.2.1,
   { a.2.2 with st := Function.update a.2.2.st k { a.2.2.st k with H := r.2.2 } })

/-- a loop over the intervals with the possibility that qpDUNES returns an error `rv k` at interval `k` (0: none) -/
def intervals (rv : Nat → Int) (body : Nat → DMem K × Work K × Qp K → DMem K × Work K × Qp K) (ks : List Nat)
    (a : DMem K × Work K × Qp K) : Upd (DMem K × Work K × Qp K) :=
  ks.foldl (fun (r : Upd (DMem K × Work K × Qp K)) k => match r with
    | .ok a => let a := body k a; if rv k = 0 then .ok a else .code (rv k) a
    | r => r) (.ok a)

/-- the first call, lines 599-683; `rv (N+1)` is the return value of `qpDUNES_setupAllLocalQPs`; `invalid` is
`QPDUNES_ERR_INVALID_ARGUMENT` -/
def setupAll (o : DOpts K) (eps : K) (invalid : Int) (rv : Nat → Int) (a : DMem K × Work K × Qp K) : Upd (DMem K × Work K × Qp K) :=
  if o.clip && needsQpoases a.2.2 then .code invalid a
  else match (if o.clip then some a.2.2 else perturb eps a.2.2) with
    | none => .ub
    | some q =>
      intervals rv (fun k a =>
        if k < q.N then storeStage k (setupStage o (q.nx 0) (q.nu 0) (a.2.2.st k) a.2.1) a
        else if k = q.N then storeStage k (setupLast o (q.nx 0) (a.2.2.st k) a.2.1) a
        else a) (List.range (q.N + 2)) (a.1, a.2.1, q)

/-- later calls, lines 684-779 -/
def updateAll (o : DOpts K) (rv : Nat → Int) (a : DMem K × Work K × Qp K) : Upd (DMem K × Work K × Qp K) :=
  let nx := a.2.2.nx 0
  let nu := a.2.2.nu 0
  if !o.linear then
    intervals rv (fun k a =>
      if k < a.2.2.N then storeStage k (updateStage o nx nu (a.2.2.st k) (a.1.st k) a.2.1) a
      else storeStage k (updateLast o nx (a.2.2.st k) (a.1.st k) a.2.1) a) (List.range (a.2.2.N + 1)) a
  else
    let s := a.2.2.st 0
    let (zl, zu) := formBounds o.inf nx nu s.nb s.ng s.idxb s.d a.2.1.zLow a.2.1.zUpp
    let a : DMem K × Work K × Qp K := ({ a.1 with st := Function.update a.1.st 0 { a.1.st 0 with zLow := zl, zUpp := zu } },
      { a.2.1 with zLow := zl, zUpp := zu }, a.2.2)
    if rv 0 = 0 then .ok a else .code (rv 0) a

/-- `update_memory`, lines 577-783 (without the multipliers of a cold start) -/
def updateMemory (o : DOpts K) (eps : K) (invalid : Int) (rv : Nat → Int) (a : DMem K × Work K × Qp K) :
    Upd (DMem K × Work K × Qp K) :=
  match (if a.1.firstRun then setupAll o eps invalid rv a else updateAll o rv a) with
  | .ok a => .ok ({ a.1 with firstRun := false }, a.2)
  | r => r

/-- the problem qpDUNES has stored; `nD` is the array `ng` of `memory_assign`, line 360 -/
def problem (q : Qp K) (m : DMem K) : DQp K := ⟨q.N, q.nx 0, q.nu 0, fun k => (q.st k).ng, m.st⟩

/-! ### The solution -/

/-- the assignments to the multipliers of a stage, lines 811-832, in order: index and value; `y` is already clipped at zero -/
def lamWrites (nx nu nb ng nv : Nat) (idxb : Nat → Nat) (y : Nat → K) : List (Nat × K) :=
  ((List.range nb).flatMap fun i =>
    if i < nx then [(nu + i, y (2 * idxb i)), (nb + ng + nu + i, y (2 * idxb i + 1))]
    else [(i - nx, y (2 * idxb i)), (nb + ng + i - nx, y (2 * idxb i + 1))]) ++
  ((List.range ng).flatMap fun i => [(nb + i, y (2 * nv + 2 * i)), (2 * nb + ng + i, y (2 * nv + 2 * i + 1))])

/-- the multipliers of a stage, lines 798-799 and 808-832; the vector has `2*nb + 2*ng` entries (`ns = 0`), an assignment
behind its end is undefined -/
def fillLam (nx nu nb ng nv : Nat) (idxb : Nat → Nat) (y old : Nat → K) : Option (Nat → K) :=
  let y : Nat → K := fun i => if i < 2 * nv + 2 * ng then (if 0 ≤ y i then y i else 0) else y i
  let w := lamWrites nx nu nb ng nv idxb y
  if w.all (fun a => decide (a.1 < 2 * nb + 2 * ng)) then
    some (assigns w Prod.fst Prod.snd (fun i => if i < 2 * nb + 2 * ng then 0 else old i))
  else none

/-- states and inputs of a stage, lines 801-802 -/
def fillUx (nx nu : Nat) (z old : Nat → K) : Nat → K :=
  assigns (List.range nu) id (fun i => z (nx + i)) (assigns (List.range nx) (fun i => nu + i) z old)

/-- `fill_in_qp_out`, lines 787-839: `none` is undefined behaviour.  `lamD` is the multiplier vector of qpDUNES, by stages. -/
def fillOut (q : Qp K) (z lamD y : Nat → Nat → K) (old : Sol K) : Option (Sol K) :=
  if (List.range (q.N + 1)).all (fun k => (fillLam (q.nx k) (q.nu k) (q.st k).nb (q.st k).ng (q.nx k + q.nu k) (q.st k).idxb (y k)
      (old.lam k)).isSome) then
    some { ux := fun k => if k ≤ q.N then fillUx (q.nx k) (q.nu k) (z k) (old.ux k) else old.ux k
           pi := fun k => if k < q.N then assigns (List.range (q.nx (k + 1))) id (lamD k) (old.pi k) else old.pi k
           lam := fun k => if k ≤ q.N then (fillLam (q.nx k) (q.nu k) (q.st k).nb (q.st k).ng (q.nx k + q.nu k) (q.st k).idxb (y k)
             (old.lam k)).getD (old.lam k) else old.lam k }
  else none

/-! ### The call -/

/-- return codes of `qpDUNES_solve` that the interface tells apart, lines 885-918 -/
inductive Code | okay | optimal | suboptimal | iterLimit | divZero | infeasible | other
  deriving DecidableEq

/-- the status, lines 884-921 (numbers from `acados/utils/types.h`); `raw` is the number of a qpDUNES code -/
def statusOf (raw : Code → Int) : Code → Int
  | .okay | .optimal => 0
  | .suboptimal => raw .suboptimal
  | .iterLimit => 2
  | .divZero => 4
  | .infeasible => 9
  | .other => -1

/-- what `qpDUNES_solve` leaves behind: code, primal point, multipliers of the coupling, multipliers of the stages -/
structure Answer (K : Type*) where
  code : Code
  z : Nat → Nat → K
  lamD : Nat → Nat → K
  y : Nat → Nat → K

/-- outcome of the call: `exit(1)`, undefined behaviour, or a return value with memory, workspace, QP of the caller and solution -/
inductive Call (K : Type*)
  | exit
  | ub
  | ret (value : Int) (a : DMem K × Work K × Qp K) (out : Sol K)

/-- `ocp_qp_qpdunes`, lines 856-923; `qpDUNES_solve` is the function `solve` of the stored problem (trusted).  Timings,
printing and the slacks `t` are left out. -/
def call (o : DOpts K) (eps : K) (invalid : Int) (rv : Nat → Int) (raw : Code → Int) (solve : DQp K → Answer K)
    (a : DMem K × Work K × Qp K) (old : Sol K) : Call K :=
  if (List.range (a.2.2.N + 1)).any (fun k => decide (0 < (a.2.2.st k).ns)) then .exit
  else match updateMemory o eps invalid rv a with
    | .ub => .ub
    | .code c a => .ret c a old
    | .ok a =>
      let r := solve (problem a.2.2 a.1)
      match fillOut a.2.2 r.z r.lamD r.y old with
      | none => .ub
      | some w => .ret (statusOf raw r.code) ({ a.1 with status := statusOf raw r.code }, a.2) w

/-- `memory_assign`, lines 321-345: `false` is `exit(1)` -/
def dimsOk (N : Nat) (nx nu : Nat → Nat) : Bool :=
  (List.range' 1 (N - 1)).all (fun k => decide (nx k = nx 0) && decide (nu k = nu 0)) &&
  decide (nx N = nx 0) && decide (nu N = 0)

end Acados.Dunes
