import Verif.Model.NlpRes
/-!
# Scaling of the QP subproblems (`ocp_nlp_qpscaling.c`)
-/
namespace Acados.QpScal
open Finset
open Acados.Step (veccp)

/-- one stage of the QP handed to the solver (HPIPM `d_ocp_qp`): `nux = nu + nx`, rows of `d`:
lower bounds `nb`, lower general `ng`, (negated) upper bounds, (negated) upper general, lower slack
bounds `ns`, upper slack bounds `ns`.  `idxs` is `idxs_rev` (`-1` = hard). -/
structure Stage (K : Type*) where
  nux : Nat
  nb : Nat
  ng : Nat
  ns : Nat
  H : Nat → Nat → K
  /-- `rqz`: gradient for `[u; x]`, then lower slacks, then upper slacks -/
  g : Nat → K
  Z : Nat → K
  BAbt : Nat → Nat → K
  b : Nat → K
  DCt : Nat → Nat → K
  d : Nat → K
  mask : Nat → K
  idxb : Nat → Nat
  idxs : Nat → Int

/-- the QP; `nx i`, `nu i` as in `d_ocp_qp_dim` -/
structure Qp (K : Type*) where
  N : Nat
  nx : Nat → Nat
  nu : Nat → Nat
  st : Nat → Stage K

/-- solution of the QP, `d_ocp_qp_sol` -/
structure Sol (K : Type*) where
  ux : Nat → Nat → K
  pi : Nat → Nat → K
  lam : Nat → Nat → K

/-- options, ocp_nlp_qpscaling.c:107-152 -/
structure Opts (D : Type*) where
  scaleObj : Bool
  scaleCon : Bool
  ubMaxEig : D
  lbGrad : D

section
variable {K : Type*} [Field K] [LinearOrder K]

/-! ## scaling factors -/

/-- `norm_inf_matrix_col`, ocp_nlp_qpscaling.c:313-324 -/
def colNorm (rows : Nat) (A : Nat → Nat → K) (col : Nat) : K :=
  (List.range rows).foldl (fun m j => cmax m |A j col|) 0

/-- `scaling_factor` of general constraint `j`, ocp_nlp_qpscaling.c:575-584 -/
def conFactor (s : Stage K) (j : Nat) : K :=
  let boundMax := cmax |s.mask (s.nb + j) * s.d (s.nb + j)|
    |s.mask (2 * s.nb + s.ng + j) * s.d (2 * s.nb + s.ng + j)|
  1 / cmax 1 (cmax boundMax (colNorm s.nux s.DCt j))

/-- `compute_gershgorin_max_abs_eig_estimate`, acados/utils/math.c:1113-1133 -/
def gershMax (n : Nat) (A : Nat → Nat → K) : K :=
  (List.range n).foldl (fun m i =>
    let r := ∑ j ∈ range n, (if j ≠ i then |A i j| else 0)
    max m (max |A i i - r| |A i i + r|)) 0

/-- `max_abs_eig`, ocp_nlp_qpscaling.c:497-506 -/
def maxAbsEig (q : Qp K) : K :=
  (List.range (q.N + 1)).foldl (fun m i =>
    cmax (cmax m (gershMax (q.st i).nux (q.st i).H)) (Res.nrmInf (2 * (q.st i).ns) (q.st i).Z)) 0

/-- `nrm_inf_grad_obj`, ocp_nlp_qpscaling.c:508-510 -/
def gradNorm (q : Qp K) : K :=
  (List.range (q.N + 1)).foldl (fun m i =>
    cmax m |Res.nrmInf ((q.st i).nux + 2 * (q.st i).ns) (q.st i).g|) 0

end

/-- `ocp_nlp_qpscaling_compute_obj_scaling_factor` after the two norms are known,
ocp_nlp_qpscaling.c:513-535: the factor and whether the status is set to
`QPSCALING_BOUNDS_NOT_SATISFIED` -/
def objFactor {D : Type*} [NatCast D] [Mul D] [Div D] [LT D] [DecidableLT D] [LE D] [DecidableLE D]
    (ub lb eig grad : D) : D × Bool :=
  let f0 : D := if eig < ub then ((1 : Nat) : D) else ub / eig
  let up : D := ub / eig
  if f0 * grad ≤ lb then (cmax f0 (cmin up (lb / grad)), true) else (f0, false)

/-- the same function in exact arithmetic, with the two divisions by zero made explicit: `none` is
the value +infinity (`C25_floating_point_agrees` in `Props/QpScaling.lean` relates the two) -/
def objFactorX {K : Type*} [Field K] [LinearOrder K] (ub lb eig grad : K) : Option K × Bool :=
  let f0 : K := if eig < ub then 1 else ub / eig
  if f0 * grad ≤ lb then
    (if eig = 0 then (if grad = 0 then none else some (cmax f0 (lb / grad)))
      else if grad = 0 then some (cmax f0 (ub / eig))
      else some (cmax f0 (cmin (ub / eig) (lb / grad))), true)
  else (some f0, false)

section
variable {K : Type*} [Field K] [LinearOrder K]

/-- `blasfeo_dveccpsc` (external): scaled copy of the first `n` entries -/
def veccpsc (n : Nat) (a : K) (x y : Nat → K) : Nat → K := fun j => if j < n then a * x j else y j

/-- the fields of the scaled QP that the constraint loop modifies, plus the stored factors -/
structure ConState (K : Type*) where
  sc : Nat → K
  DCt : Nat → Nat → K
  d : Nat → K
  g : Nat → K
  Z : Nat → K

/-- multiply / divide one entry in place -/
def mulAt (x : Nat → K) (k : Nat) (a : K) : Nat → K := Function.update x k (x k * a)
def divAt (x : Nat → K) (k : Nat) (a : K) : Nat → K := Function.update x k (x k / a)

/-- body of the loop over the general constraints, ocp_nlp_qpscaling.c:573-616 -/
def conStep (s : Stage K) (t : ConState K) (j : Nat) : ConState K :=
  let f := conFactor s j
  let t1 : ConState K := { t with
    sc := Function.update t.sc j f
    DCt := fun r c => if r < s.nux ∧ c = j then f * s.DCt r c else t.DCt r c }
  let si := s.idxs (s.nb + j)
  let t2 : ConState K :=
    if si ≠ -1 then
      let k := si.toNat
      { t1 with
        g := divAt (divAt t1.g (s.nux + k) f) (s.nux + s.ns + k) f
        Z := divAt (divAt t1.Z k (f * f)) (s.ns + k) (f * f)
        d := mulAt (mulAt t1.d (2 * (s.nb + s.ng) + k) f) (2 * (s.nb + s.ng) + s.ns + k) f }
    else t1
  let d3 := if s.mask (s.nb + j) = 1 then mulAt t2.d (s.nb + j) f else t2.d
  let d4 := if s.mask (2 * s.nb + s.ng + j) = 1 then mulAt d3 (2 * s.nb + s.ng + j) f else d3
  { t2 with d := d4 }

/-- memory of the scaling module: the scaled QP (non-aliased fields) and the factors -/
structure Mem (K : Type*) where
  qp : Qp K
  sc : Nat → Nat → K
  objFac : K

/-- one stage of the scaled QP after `ocp_nlp_qpscaling_precompute` (aliasing,
ocp_nlp_qpscaling.c:415-475), `ocp_qp_scale_objective` (379-393) and
`ocp_nlp_qpscaling_scale_constraints` (558-618); `old` is the previous content of the scaled stage -/
def scaleStage (so sc : Bool) (f : K) (s old : Stage K) (oldSc : Nat → K) :
    Stage K × (Nat → K) :=
  let H' : Nat → Nat → K := if so then
      fun r c => if r < s.nux ∧ c < s.nux then f * s.H r c else old.H r c
    else s.H
  let g1 : Nat → K := if so then veccpsc (s.nux + 2 * s.ns) f s.g old.g
    else if sc then veccp (s.nux + 2 * s.ns) s.g old.g else s.g
  let Z1 : Nat → K := if so then veccpsc (2 * s.ns) f s.Z old.Z
    else if sc then veccp (2 * s.ns) s.Z old.Z else s.Z
  if sc then
    let t0 : ConState K := ⟨oldSc, old.DCt, veccp (2 * (s.nb + s.ng + s.ns)) s.d old.d, g1, Z1⟩
    let t := (List.range s.ng).foldl (conStep s) t0
    ({ s with H := H', g := t.g, Z := t.Z, d := t.d, DCt := t.DCt }, t.sc)
  else ({ s with H := H', g := g1, Z := Z1 }, oldSc)

/-- the scaled QP for a given objective factor -/
def scaleQpWith (so sc : Bool) (f : K) (q : Qp K) (m : Mem K) : Mem K :=
  { qp := { q with st := fun i => if i ≤ q.N then
      (scaleStage so sc f (q.st i) (m.qp.st i) (m.sc i)).1 else q.st i }
    sc := fun i => if i ≤ q.N then
      (scaleStage so sc f (q.st i) (m.qp.st i) (m.sc i)).2 else m.sc i
    objFac := f }

/-- `ocp_nlp_qpscaling_scale_qp`, ocp_nlp_qpscaling.c:638-665; `none` if the objective factor is
infinite -/
def scaleQp (o : Opts K) (q : Qp K) (m : Mem K) : Option (Mem K) :=
  if o.scaleObj then
    (objFactorX o.ubMaxEig o.lbGrad (maxAbsEig q) (gradNorm q)).1.map
      fun f => scaleQpWith true o.scaleCon f q m
  else some (scaleQpWith false o.scaleCon 1 q m)

/-- body of the loop in `rescale_solution_constraint_scaling`, ocp_nlp_qpscaling.c:352-374 -/
def unStep (s : Stage K) (sc : Nat → K) (t : (Nat → K) × (Nat → K)) (j : Nat) :
    (Nat → K) × (Nat → K) :=
  let f := sc j
  let lam1 := mulAt (mulAt t.2 (s.nb + j) f) (2 * s.nb + s.ng + j) f
  let si := s.idxs (s.nb + j)
  if si ≥ 0 then
    let k := si.toNat
    (divAt (divAt t.1 (s.nux + k) f) (s.nux + s.ns + k) f,
      mulAt (mulAt lam1 (2 * s.nb + 2 * s.ng + k) f) (2 * s.nb + 2 * s.ng + s.ns + k) f)
  else (t.1, lam1)

/-- `ocp_nlp_qpscaling_rescale_solution`, ocp_nlp_qpscaling.c:668-686 with 327-376 and 396-407;
`w` is the solution of the scaled QP, `out` the previous content of `qp_out` -/
def rescale (o : Opts K) (q : Qp K) (m : Mem K) (w out : Sol K) : Sol K :=
  let nlam : Nat → Nat := fun i => 2 * ((q.st i).nb + (q.st i).ng + (q.st i).ns)
  let a := 1 / m.objFac
  let lam1 : Nat → Nat → K := fun i =>
    if i ≤ q.N then
      (if o.scaleObj then veccpsc (nlam i) a (w.lam i) (out.lam i)
        else if o.scaleCon then veccp (nlam i) (w.lam i) (out.lam i) else w.lam i)
    else out.lam i
  let pi1 : Nat → Nat → K := fun i =>
    if i < q.N then
      (if o.scaleObj then veccpsc (q.nx (i + 1)) a (w.pi i) (out.pi i)
        else if o.scaleCon then veccp (q.nx (i + 1)) (w.pi i) (out.pi i) else w.pi i)
    else out.pi i
  let ux1 : Nat → Nat → K := fun i =>
    if i ≤ q.N then
      (if o.scaleCon then veccp ((q.st i).nux + 2 * (q.st i).ns) (w.ux i) (out.ux i) else w.ux i)
    else out.ux i
  if o.scaleCon then
    { ux := fun i => if i ≤ q.N then
        ((List.range (q.st i).ng).foldl (unStep (q.st i) (m.sc i)) (ux1 i, lam1 i)).1 else ux1 i
      lam := fun i => if i ≤ q.N then
        ((List.range (q.st i).ng).foldl (unStep (q.st i) (m.sc i)) (ux1 i, lam1 i)).2 else lam1 i
      pi := pi1 }
  else { ux := ux1, lam := lam1, pi := pi1 }

/-- getter `min_constraint_scaling`, ocp_nlp_qpscaling.c:283-298 (the terminal stage is not
visited) -/
def minScaling (q : Qp K) (sc : Nat → Nat → K) : K :=
  (List.range q.N).foldl (fun m i =>
    (List.range (q.st i).ng).foldl (fun m j => if sc i j < m then sc i j else m) m) 1

end
end Acados.QpScal
