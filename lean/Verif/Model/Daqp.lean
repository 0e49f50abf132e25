import Verif.Model.DenseQp
/-!
# DAQP interface (`dense_qp_daqp.c`)

The dense QP is turned into a least-distance problem in normalised coordinates (the LDP), DAQP (external) solves that, and
the result is mapped back.  External: `daqp_check_bounds`, `daqp_ldp`; the Cholesky factorisation and the triangular
solves of BLASFEO (`Chol`); the reciprocal square root.  The dynamic part of the solver state (working set, warm start
bits) belongs to DAQP and is not modelled; `kind` is the structural part of `work->sense`.
-/
namespace Acados.Daqp
open Finset
open Acados.DenseQp (DQp idxsOf)
variable {K : Type*} [Field K] [LinearOrder K]

/-- structural state of a constraint: hard, `DAQP_SOFT`, equality (`DAQP_ACTIVE | DAQP_IMMUTABLE`), not considered
(`DAQP_IMMUTABLE` only) -/
inductive Kind
  | hard
  | soft
  | eq
  | ign
  deriving DecidableEq

/-- triangular solves with the Cholesky factor: `blasfeo_dtrsv_lnn`/`dtrsm_llnn` and `blasfeo_dtrsv_ltn` -/
structure Chol (K : Type*) where
  solveN : (Nat → K) → Nat → K
  solveT : (Nat → K) → Nat → K

/-- external routines and constants: `blasfeo_dpotrf_l`, `x ↦ 1/sqrt x`, `daqp_check_bounds` (true: negative return),
`DAQP_INF`, `zero_tol` and the smallest quadratic slack penalty `1e-8` -/
structure Ext (K : Type*) where
  potrf : (Nat → Nat → K) → Chol K
  rsqrt : K → K
  check : (Nat → K) → (Nat → K) → Bool
  big : K
  tol : K
  eps : K

/-- what persists between calls: `H_factor`, `M_factor` (variable, constraint), `work->M`, `work->scaling`,
`work->sense`, `matrices_initialized` -/
structure Mem (K : Type*) where
  chol : Chol K
  Mf : Nat → Nat → K
  Mw : Nat → Nat → K
  sc : Nat → K
  kind : Nat → Kind
  init : Bool

/-- the problem handed to DAQP: `min 1/2 |u|²` subject to `dlo ≤ M u ≤ dup` with slacks on soft constraints -/
structure Ldp (K : Type*) where
  n : Nat
  m : Nat
  M : Nat → Nat → K
  dlo : Nat → K
  dup : Nat → K
  kind : Nat → Kind
  dls : Nat → K
  dus : Nat → K
  rhol : Nat → K
  rhou : Nat → K

/-- number of constraints `nb + ng + ne` -/
def mOf (q : DQp K) : Nat := q.nb + q.ng + q.ne

/-- columns of `M_factor` before the triangular solve, dense_qp_daqp.c:551-561 -/
def colOf (q : DQp K) (i j : Nat) : K :=
  if i < q.nb then (if j = q.idxb i then 1 else 0)
  else if i < q.nb + q.ng then q.Ct j (i - q.nb)
  else q.A (i - (q.nb + q.ng)) j

/-- lower bounds in the order of DAQP with masked ones at `-DAQP_INF` (dense_qp_daqp.c:483, 568-600, 613) -/
def blowerOf (e : Ext K) (q : DQp K) (i : Nat) : K :=
  if i < q.nb then (if q.mask i = 0 then -e.big else q.d i)
  else if i < q.nb + q.ng then (if q.mask (q.nb + (i - q.nb)) = 0 then -e.big else q.d (q.nb + (i - q.nb)))
  else -e.big

/-- upper bounds (dense_qp_daqp.c:478, 484-486, 571, 586-589, 597-600) -/
def bupperOf (e : Ext K) (q : DQp K) (i : Nat) : K :=
  if i < q.nb then (if q.mask (i + q.ng + q.nb) = 0 then e.big else -q.d (q.nb + q.ng + i))
  else if i < q.nb + q.ng then
    (if q.mask (2 * q.nb + q.ng + (i - q.nb)) = 0 then e.big else -q.d (2 * q.nb + q.ng + (i - q.nb)))
  else q.b (i - (q.nb + q.ng))

/-- `MAX(1e-8, Z)` for lower and upper slacks (dense_qp_daqp.c:636-637) -/
def zHess (e : Ext K) (q : DQp K) (j : Nat) : K := max e.eps (q.Z j)

/-- arrays changed by the loop over soft constraints -/
structure Soft (K : Type*) where
  lo : Nat → K
  up : Nat → K
  dls : Nat → K
  dus : Nat → K
  rhol : Nat → K
  rhou : Nat → K

/-- body of the loop over soft constraints, dense_qp_daqp.c:621-662 (`idxs` at 623) -/
def softStep (e : Ext K) (q : DQp K) (s : Soft K) (ii : Nat) : Soft K :=
  let i := idxsOf q ii
  let Zl := zHess e q ii
  let Zu := zHess e q (q.ns + ii)
  let zl := q.gz (q.nv + ii)
  let zu := q.gz (q.nv + q.ns + ii)
  let dls := q.d (2 * q.nb + 2 * q.ng + ii)
  let dus := q.d (2 * q.nb + 2 * q.ng + q.ns + ii)
  let dl := max 0 (zl + Zl * dls)
  let du := max 0 (zu + Zu * dus)
  { lo := Function.update s.lo i (s.lo i + zl / Zl - dl / Zl)
    up := Function.update s.up i (s.up i - zu / Zu + du / Zu)
    dls := Function.update s.dls i dl
    dus := Function.update s.dus i du
    rhol := Function.update s.rhol i (1 / Zl)
    rhou := Function.update s.rhou i (1 / Zu) }

/-- the bounds after the loop; `old`: earlier content of the slack arrays -/
def softOf (e : Ext K) (q : DQp K) (old : Soft K) : Soft K :=
  (List.range q.ns).foldl (softStep e q) { old with lo := blowerOf e q, up := bupperOf e q }

/-- structural state after marking equalities and soft constraints (dense_qp_daqp.c:528-531, 604-616, 630-634) -/
def kindOf (q : DQp K) : Nat → Kind :=
  (List.range q.ns).foldl (fun a ii => Function.update a (idxsOf q ii) .soft)
    fun i => if q.nb + q.ng ≤ i then .eq else .hard

/-- state of the normalisation loop; `bad`: returned `DAQP_EXIT_INFEASIBLE` -/
structure Norm (K : Type*) where
  Mf : Nat → Nat → K
  sc : Nat → K
  kind : Nat → Kind
  bad : Bool

/-- body of the normalisation loop, dense_qp_daqp.c:671-697 (`DAQP_ASSUME_VALID` not defined) -/
def normStep (e : Ext K) (nv : Nat) (lo up : Nat → K) (s : Norm K) (i : Nat) : Norm K :=
  if s.bad then s
  else
    let n2 := ∑ j ∈ range nv, s.Mf j i * s.Mf j i
    if n2 < e.tol then
      let s1 := { s with sc := Function.update s.sc i 1 }
      if (up i < -e.tol ∨ lo i > e.tol) ∧ s.kind i = .hard then { s1 with bad := true }
      else { s1 with kind := Function.update s.kind i .ign }
    else
      let c := e.rsqrt n2
      { s with sc := Function.update s.sc i c
               Mf := fun j k => if k = i ∧ j < nv then c * s.Mf j k else s.Mf j k }

/-- `dense_qp_daqp_update_memory`, dense_qp_daqp.c:504-745.  `hot`: `warm_start == 2`.  Result: memory afterwards, the
transformed gradient `work->v` and the LDP, or `none` for a negative return value; `old`: earlier slack arrays. -/
def update (e : Ext K) (hot : Bool) (q : DQp K) (old : Soft K) (m : Mem K) : Mem K × Option ((Nat → K) × Soft K × Ldp K) :=
  let upd := !hot || !m.init
  let m1 : Mem K := if upd then
      let ch := e.potrf (DenseQp.fillUpper q.nv q.H)
      { m with chol := ch, kind := kindOf q, Mf := fun j i => if j < q.nv ∧ i < mOf q then ch.solveN (colOf q i) j else m.Mf j i }
    else m
  let s := softOf e q old
  if e.check s.up s.lo then (m1, none)
  else
    let r : Norm K := if upd then
        (List.range (mOf q)).foldl (normStep e q.nv s.lo s.up) ⟨m1.Mf, m1.sc, m1.kind, false⟩
      else ⟨m1.Mf, m1.sc, m1.kind, false⟩
    if r.bad then ({ m1 with Mf := r.Mf, sc := r.sc, kind := r.kind }, none)
    else
      let m2 : Mem K := { m1 with Mf := r.Mf, sc := r.sc, kind := r.kind
                                  Mw := if upd then r.Mf else m1.Mw, init := true }
      let v := m2.chol.solveN q.gz
      let off : Nat → K := fun i => ∑ j ∈ range q.nv, m2.Mf j i * v j
      let s2 : Soft K := (List.range q.ns).foldl (fun (s : Soft K) ii =>
          let i := idxsOf q ii
          { s with dls := Function.update s.dls i (s.dls i / m2.sc i)
                   dus := Function.update s.dus i (s.dus i / m2.sc i)
                   rhol := Function.update s.rhol i (s.rhol i * (m2.sc i * m2.sc i))
                   rhou := Function.update s.rhou i (s.rhou i * (m2.sc i * m2.sc i)) }) s
      (m2, some (v, s2,
        { n := q.nv, m := mOf q, M := m2.Mw, kind := m2.kind
          dlo := fun i => s2.lo i * m2.sc i + off i
          dup := fun i => s2.up i * m2.sc i + off i
          dls := s2.dls, dus := s2.dus, rhol := s2.rhol, rhou := s2.rhou }))

/-- `dense_qp_daqp_ldp_to_qp_solution`, dense_qp_daqp.c:752-760 -/
def toX (m : Mem K) (v u : Nat → K) : Nat → K := m.chol.solveT fun i => u i - v i

/-- `dense_qp_out`: variables with slacks, inequality and equality multipliers -/
structure Out (K : Type*) where
  v : Nat → K
  lam : Nat → K
  pi : Nat → K

/-- multiplier of an active constraint, dense_qp_daqp.c:786-806 (`p`: index in `WS` and `lam_star`) -/
def lamStep (m : Mem K) (q : DQp K) (s : (Nat → K) × (Nat → K)) (p : Nat × K) : (Nat → K) × (Nat → K) :=
  let y := p.2 * m.sc p.1
  if p.1 < q.nb then
    if 0 ≤ y then (Function.update s.1 (q.nb + q.ng + p.1) y, s.2) else (Function.update s.1 p.1 (-y), s.2)
  else if p.1 < q.nb + q.ng then
    if 0 ≤ y then (Function.update s.1 (q.nb + q.ng + p.1) y, s.2) else (Function.update s.1 p.1 (-y), s.2)
  else (s.1, Function.update s.2 (p.1 - q.nb - q.ng) y)

/-- slacks, their multipliers and the restored bounds, dense_qp_daqp.c:812-843 -/
def slackStep (e : Ext K) (m : Mem K) (q : DQp K) (s : Soft K × (Nat → K) × (Nat → K)) (ii : Nat) :
    Soft K × (Nat → K) × (Nat → K) :=
  let i := idxsOf q ii
  let Zl := zHess e q ii
  let Zu := zHess e q (q.ns + ii)
  let zl := q.gz (q.nv + ii)
  let zu := q.gz (q.nv + q.ns + ii)
  let b := s.1
  let v := s.2.1
  let lam := s.2.2
  let lo := b.lo i - (zl - b.dls i * m.sc i) / Zl
  let up := b.up i + (zu - b.dus i * m.sc i) / Zu
  let val := if i < q.nb then v (q.idxb i) else ∑ j ∈ range q.nv, q.Ct j (i - q.nb) * v j
  let sl := max (q.d (2 * q.nb + 2 * q.ng + ii)) (lo - val)
  let v1 := Function.update v (q.nv + ii) sl
  let lam1 := Function.update lam (2 * (q.nb + q.ng) + ii) (Zl * sl + zl - lam i)
  let su := max (q.d (2 * q.nb + 2 * q.ng + q.ns + ii)) (val - up)
  let v2 := Function.update v1 (q.nv + q.ns + ii) su
  let lam2 := Function.update lam1 (2 * (q.nb + q.ng) + q.ns + ii) (Zu * su + zu - lam1 (i + q.nb + q.ng))
  ({ b with lo := Function.update b.lo i lo, up := Function.update b.up i up }, v2, lam2)

/-- `dense_qp_daqp_fill_output`, dense_qp_daqp.c:764-844 -/
def fill (e : Ext K) (m : Mem K) (q : DQp K) (b : Soft K) (x : Nat → K) (ws : List (Nat × K)) (o : Out K) : Out K :=
  let v0 : Nat → K := fun j => if j < q.nv then x j else o.v j
  let l0 : Nat → K := fun j => if j < 2 * q.nb + 2 * q.ng + 2 * q.ns then 0 else o.lam j
  let lp := ws.foldl (lamStep m q) (l0, o.pi)
  let r := (List.range q.ns).foldl (slackStep e m q) (b, v0, lp.1)
  { v := r.2.1, lam := r.2.2, pi := lp.2 }

/-- `dense_qp_daqp`, dense_qp_daqp.c:848-882: `ans` is the answer of DAQP (`work->u` and the working set with its
multipliers); `none`: the set-up failed -/
def call (e : Ext K) (hot : Bool) (q : DQp K) (old : Soft K) (m : Mem K) (ans : Ldp K → (Nat → K) × List (Nat × K))
    (o : Out K) : Mem K × Option (Out K) :=
  let r := update e hot q old m
  (r.1, r.2.map fun s => let a := ans s.2.2; fill e r.1 q s.2.1 (toX r.1 s.1 a.1) a.2 o)

end Acados.Daqp
