import Verif.Model.Wfqp
/-!
# Dense QPs: stacking of slack variables and the qpOASES interface

`dense_qp_common.c` (`dense_qp_stack_slacks*`, `dense_qp_compute_t`) and `dense_qp_qpoases.c`.
The solver qpOASES itself is external: its result is a parameter.
-/
namespace Acados.DenseQp
open Finset
open Acados.Wfqp (veccpAt vecse)

section
variable {K : Type*} [Field K] [LinearOrder K]

/-- `dense_qp_in` (HPIPM `struct d_dense_qp`, external): `H` is `Hv` (read as symmetric matrix), `gz` the
gradient of variables and slacks, `d = [lb; lg; -ub; -ug; ls; us]`, `Z` the diagonal Hessian of the slacks
and `idxsRev` the slack of every constraint (`-1`: hard constraint). -/
structure DQp (K : Type*) where
  nv : Nat
  ne : Nat
  nb : Nat
  ng : Nat
  ns : Nat
  H : Nat → Nat → K
  gz : Nat → K
  A : Nat → Nat → K
  b : Nat → K
  Ct : Nat → Nat → K
  idxb : Nat → Nat
  idxsRev : Nat → Int
  d : Nat → K
  Z : Nat → K
  m : Nat → K
  mask : Nat → K

/-- number of entries `> -1` among `idxs_rev[lo], ..., idxs_rev[lo+n-1]`, the two loops of
`dense_qp_stack_slacks_recover_nsb_nsg_from_idxs_rev`, dense_qp_common.c:446-466 -/
def countSoft (rev : Nat → Int) (lo n : Nat) : Nat :=
  (List.range n).foldl (fun a i => if rev (lo + i) > -1 then a + 1 else a) 0

/-- `dense_qp_stack_slacks_dims_from_idxs_rev`, dense_qp_common.c:469-479: dimensions of `out` (`nsb ≤ nb`,
so the subtraction is not truncated) -/
def stackDims (q out : DQp K) : DQp K :=
  let nsb := countSoft q.idxsRev 0 q.nb
  { out with nv := q.nv + 2 * q.ns, ne := q.ne, nb := q.nb - nsb + 2 * q.ns,
             ng := (if q.ns > 0 then q.ng + nsb else q.ng), ns := 0 }

/-- `BLASFEO_DMATEL(A, i, j) = x` -/
def setM (A : Nat → Nat → K) (i j : Nat) (x : K) : Nat → Nat → K :=
  fun r c => if r = i ∧ c = j then x else A r c

/-- arrays of `out` while `dense_qp_stack_slacks` runs, with the counters `col_b` and `k_nsb` -/
structure Acc (K : Type*) where
  Ct : Nat → Nat → K
  d : Nat → K
  idxb : Nat → Nat
  m : Nat → K
  col : Nat
  k : Nat

/-- body of the loop over all constraints, dense_qp_common.c:543-594 (`nsb`: number of soft bounds,
`nb2`, `ng2`: dimensions of the stacked QP) -/
def softStep (q : DQp K) (nsb nb2 ng2 : Nat) (s : Acc K) (js : Nat) : Acc K :=
  if q.idxsRev js ≠ -1 then
    let ii := (q.idxsRev js).toNat
    let s1 : Acc K :=
      if js < q.nb then
        { s with
          m := Function.update s.m js (-1)
          Ct := setM (setM (setM s.Ct (q.idxb js) s.col 1) (q.nv + ii) s.col 1) (q.nv + q.ns + ii) s.col (-1)
          d := Function.update (Function.update s.d (nb2 + s.col) (q.d js))
                (2 * nb2 + ng2 + s.col) (-q.d (q.nb + q.ng + js))
          col := s.col + 1 }
      else
        { s with
          Ct := setM (setM s.Ct (q.nv + ii) (js - q.nb) 1) (q.nv + q.ns + ii) (js - q.nb) (-1) }
    { s1 with
      idxb := Function.update (Function.update s1.idxb (q.nb - nsb + ii) (ii + q.nv))
                (q.nb - nsb + q.ns + ii) (ii + q.nv + q.ns) }
  else s

/-- body of the loop over the bounds, dense_qp_common.c:597-608.  The variable index written to `idxb` is
the position `ii` of the bound, as in the code. -/
def hardStep (q : DQp K) (nb2 ng2 : Nat) (s : Acc K) (ii : Nat) : Acc K :=
  if s.m ii > 0 then
    { s with
      d := Function.update (Function.update s.d s.k (q.d ii)) (nb2 + ng2 + s.k) (-q.d (q.nb + q.ng + ii))
      idxb := Function.update s.idxb s.k ii
      k := s.k + 1 }
  else s

/-- `dense_qp_stack_slacks`, dense_qp_common.c:482-635.  `old` is the stacked QP before the call (its
dimensions are read, its arrays hold old data); `none` is a failed assertion. -/
def stack (q old : DQp K) : Option (DQp K) :=
  let nv2 := old.nv
  let nb2 := old.nb
  let ng2 := old.ng
  let nsb := countSoft q.idxsRev 0 q.nb
  if nv2 = q.nv + 2 * q.ns ∧ nb2 = q.nb - nsb + 2 * q.ns ∧ ng2 = q.ng + nsb then
    let H : Nat → Nat → K := fun r c =>
      if r < nv2 ∧ c < nv2 then
        if r < q.nv ∧ c < q.nv then q.H r c
        else if r = c ∧ q.nv ≤ r then q.Z (r - q.nv) else 0
      else old.H r c
    let A : Nat → Nat → K := fun r c =>
      if r < q.ne ∧ c < nv2 then (if c < q.nv then q.A r c else 0) else old.A r c
    let Ct0 : Nat → Nat → K := fun r c =>
      if r < nv2 ∧ c < ng2 then (if r < q.nv ∧ c < q.ng then q.Ct r c else 0) else old.Ct r c
    let gz := veccpAt (q.nv + 2 * q.ns) q.gz 0 old.gz 0
    let b := veccpAt q.ne q.b 0 old.b 0
    if q.ns > 0 then
      let s0 : Acc K := { Ct := Ct0, d := old.d, idxb := old.idxb, m := vecse q.nb 1 old.m 0, col := q.ng, k := 0 }
      let s1 := (List.range (q.nb + q.ng)).foldl (softStep q nsb nb2 ng2) s0
      let s2 := (List.range q.nb).foldl (hardStep q nb2 ng2) s1
      if s2.k = q.nb - nsb then
        let d1 := veccpAt (2 * q.ns) q.d (2 * q.nb + 2 * q.ng) s2.d s2.k
        let d2 := vecse (2 * q.ns) 1000000 d1 (nb2 + ng2 + s2.k)
        let d3 := veccpAt q.ng q.d q.nb d2 nb2
        let d4 := veccpAt q.ng (fun j => -q.d j) (2 * q.nb + q.ng) d3 (2 * nb2 + ng2)
        let d5 : Nat → K := fun j => if nb2 + ng2 ≤ j ∧ j < 2 * (nb2 + ng2) then -d4 j else d4 j
        some { old with H := H, A := A, b := b, gz := gz, Ct := s2.Ct, idxb := s2.idxb, d := d5,
                        m := vecse (2 * nb2 + 2 * ng2) 0 s2.m 0 }
      else none
    else
      some { old with H := H, A := A, b := b, gz := gz, Ct := Ct0,
                      d := veccpAt (2 * q.nb + 2 * q.ng) q.d 0 old.d 0,
                      m := veccpAt (2 * q.nb + 2 * q.ng) q.m 0 old.m 0,
                      idxb := fun j => if j < q.nb then q.idxb j else old.idxb j }
  else none

/-! ## qpOASES -/

/-- loop `d_lb[idx[ii]] = d_lb0[ii]` after the initialisation with an infinite bound,
dense_qp_qpoases.c:498-525 -/
def scatter (n : Nat) (idx : Nat → Nat) (src : Nat → K) (init : K) : Nat → K :=
  (List.range n).foldl (fun a i => Function.update a (idx i) (src i)) fun _ => init

/-- arguments of `QProblem_init` -/
structure QArgs (K : Type*) where
  n : Nat
  m : Nat
  H : Nat → Nat → K
  g : Nat → K
  C : Nat → Nat → K
  lb : Nat → K
  ub : Nat → K
  lbA : Nat → K
  ubA : Nat → K

/-- `blasfeo_dtrtr_l(nv, Hv, Hv)`, dense_qp_qpoases.c:477: the upper triangle is filled -/
def fillUpper (n : Nat) (H : Nat → Nat → K) : Nat → Nat → K :=
  fun r c => if r < n ∧ c < n ∧ r < c then H c r else H r c

/-- arguments of qpOASES taken from a QP without slacks (`d_dense_qp_get_all_rowmaj`, external, and
dense_qp_qpoases.c:498-525); `big` is `QPOASES_INFTY`.  `A` and `b` are not passed. -/
def argsOf (big : K) (q : DQp K) : QArgs K :=
  { n := q.nv, m := q.ng, H := q.H, g := q.gz, C := fun c j => q.Ct j c
    lb := scatter q.nb q.idxb q.d (-big)
    ub := scatter q.nb q.idxb (fun i => -q.d (q.nb + q.ng + i)) big
    lbA := fun c => q.d (q.nb + c)
    ubA := fun c => -q.d (2 * q.nb + q.ng + c) }

/-- data passed to qpOASES, dense_qp_qpoases.c:476-526 -/
def qpoasesArgs (big : K) (q old : DQp K) : Option (QArgs K) :=
  let q1 := { q with H := fillUpper q.nv q.H }
  if q.ns > 0 then (stack q1 (stackDims q1 old)).map (argsOf big) else some (argsOf big q1)

/-- `idxs` from `idxs_rev` (`d_dense_qp_get_all_rowmaj`, external; the same loop as in
dense_qp_daqp.c:499-506) -/
def idxsOf (q : DQp K) : Nat → Nat :=
  (List.range (q.nb + q.ng)).foldl
    (fun a i => if q.idxsRev i ≠ -1 then Function.update a (q.idxsRev i).toNat i else a) fun _ => 0

/-- multiplier of a bound or general constraint, dense_qp_qpoases.c:706-720: `y ≥ 0` belongs to the lower
side `lo`, otherwise to the upper side `up` -/
def split (lam : Nat → K) (lo up : Nat) (y : K) : Nat → K :=
  if y ≥ 0 then Function.update lam lo y else Function.update lam up (-y)

/-- body of the loop over the slacks, dense_qp_qpoases.c:722-761 -/
def slackStep (q : DQp K) (idxs : Nat → Nat) (y : Nat → K) (s : (Nat → K) × Nat) (ii : Nat) :
    (Nat → K) × Nat :=
  let n := q.nb + q.ng
  let nv2 := q.nv + 2 * q.ns
  let js := idxs ii
  let yk := y (nv2 + q.ng + s.2)
  let r : (Nat → K) × K × K × Nat :=
    if js < q.nb then
      if yk ≤ 0 then (Function.update s.1 (n + js) (-yk), 0, -yk, s.2 + 1)
      else (Function.update s.1 js yk, yk, 0, s.2 + 1)
    else (s.1, s.1 js, s.1 (n + js), s.2)
  let l1 := if y (q.nv + ii) ≥ 0 then Function.update r.1 (2 * n + ii) (y (q.nv + ii) - r.2.2.1) else r.1
  let l2 := if y (q.nv + q.ns + ii) ≥ 0 then
      Function.update l1 (2 * n + q.ns + ii) (y (q.nv + q.ns + ii) - r.2.1) else l1
  (l2, r.2.2.2)

/-- multipliers returned to acados, dense_qp_qpoases.c:702-772: `y` is `dual_sol` -/
def qpoasesLam (q : DQp K) (y : Nat → K) : Nat → K :=
  let n := q.nb + q.ng
  let nv2 := q.nv + 2 * q.ns
  let l1 := (List.range q.nb).foldl (fun l i => split l i (n + i) (y (q.idxb i))) fun _ => 0
  let l2 := (List.range q.ng).foldl
    (fun l i => split l (q.nb + i) (2 * q.nb + q.ng + i) (y (nv2 + i))) l1
  let l3 := ((List.range q.ns).foldl (slackStep q (idxsOf q) y) (l2, 0)).1
  fun j => if j < 2 * (n + q.ns) then l3 j * q.mask j else l3 j

end
end Acados.DenseQp
