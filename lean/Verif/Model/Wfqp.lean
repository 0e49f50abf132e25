import Verif.Model.QpScaling
/-!
# Relaxed QP of SQP_WITH_FEASIBLE_QP (`ocp_nlp_sqp_with_feasible_qp.c`)

Index bookkeeping, data of the relaxed (feasibility) QP, bound update of the nominal QP and the two
infeasibility measures.
-/
namespace Acados.Wfqp
open Finset
open Acados.QpScal

/-! ## indices -/

/-- dimensions of the constraint module of one stage (bgh: ocp_nlp_constraints_bgh.h:49-76; bgp has
`nphi` in the place of `nh`).  `ns` is a separate field: with the `idxs_rev` formulation it is set alone
and `nsbu, nsbx, nsg, nsh` stay zero. -/
structure CDims where
  nbu : Nat
  nbx : Nat
  ng : Nat
  nh : Nat
  nsbu : Nat
  nsbx : Nat
  nsg : Nat
  nsh : Nat
  ns : Nat

/-- `ni - ns` of a stage: bounds, general and nonlinear constraints -/
def CDims.n (d : CDims) : Nat := d.nbu + d.nbx + d.ng + d.nh

/-- `nns[stage]`, ocp_nlp_sqp_with_feasible_qp.c:286-299 and 393-408 (C `int` arithmetic) -/
def nns (first : Bool) (d : CDims) : Int :=
  if first then (d.n : Int) - d.ns - d.nbu + d.nsbu - d.nbx + d.nsbx
  else (d.n : Int) - d.ns - d.nbu + d.nsbu

/-- number of slacks of the relaxed QP,
`ocp_nlp_update_relaxed_qp_solver_ns_from_constraints_module`, ocp_nlp_common.c:631-656 -/
def relaxedNs (first : Bool) (d : CDims) : Nat :=
  (d.ng + d.nh) + d.nsbu + (if first then d.nsbx else d.nbx)

/-- `model->idxs` after the setters `idxsbu`, `idxsbx`, `idxsg`, `idxsh`,
ocp_nlp_constraints_bgh.c:559-619 (bgp: 549-609).  Negative user entries are not modelled. -/
def buildIdxs (d : CDims) (sbu sbx sg sh : Nat → Nat) : Nat → Nat := fun j =>
  if j < d.nsbu then sbu j
  else if j < d.nsbu + d.nsbx then d.nbu + sbx (j - d.nsbu)
  else if j < d.nsbu + d.nsbx + d.nsg then d.nbu + d.nbx + sg (j - d.nsbu - d.nsbx)
  else d.nbu + d.nbx + d.ng + sh (j - d.nsbu - d.nsbx - d.nsg)

/-- `i_slacked`, ocp_nlp_sqp_with_feasible_qp.c:1925-1933 -/
def slacked (d : CDims) (idxs : Nat → Nat) (i : Nat) : Bool :=
  (List.range d.ns).any fun j => idxs j == i

/-- test of line 1935 without `i_slacked` -/
def relaxable (first : Bool) (d : CDims) (i : Nat) : Bool :=
  if first then decide (d.nbu + d.nbx ≤ i) else decide (d.nbu ≤ i)

/-- the values written to `idxns[stage][0], idxns[stage][1], ...`,
ocp_nlp_sqp_with_feasible_qp.c:1919-1940; the array has room for `nns` of them -/
def idxnsOf (first : Bool) (d : CDims) (idxs : Nat → Nat) : List Nat :=
  (List.range d.n).filter fun i => !slacked d idxs i && relaxable first d i

/-- the loop `rev[idxs[i]] = i`, ocp_nlp_sqp_with_feasible_qp.c:1951-1954; the same loop sets `idxs_rev`
of the nominal QP (ocp_nlp_constraints_bgh.c:1254-1257) -/
def setRev (n : Nat) (idx : Nat → Nat) (off : Nat) (rev : Nat → Int) : Nat → Int :=
  (List.range n).foldl (fun a i => Function.update a (idx i) ((i + off : Nat) : Int)) rev

/-- `idxs_rev` of the nominal QP; the arrays start with `-1` (HPIPM `d_ocp_qp_create`, external) -/
def nomRev (d : CDims) (idxs : Nat → Nat) : Nat → Int := setRev d.ns idxs 0 fun _ => -1

/-- `idxs_rev` of the relaxed QP, ocp_nlp_sqp_with_feasible_qp.c:1942-1959: `nns` entries of `idxns` are
read (entries that were not written read as `0`, the memory is zeroed at creation) -/
def relRev (first : Bool) (d : CDims) (idxs : Nat → Nat) : Nat → Int :=
  setRev (nns first d).toNat (fun i => (idxnsOf first d idxs).getD i 0) d.ns (nomRev d idxs)

/-! ## data of the relaxed QP -/

section
variable {K : Type*} [Field K] [LinearOrder K]

/-- `blasfeo_dveccp(n, x, xi, y, yi)` (external) -/
def veccpAt (n : Nat) (x : Nat → K) (xi : Nat) (y : Nat → K) (yi : Nat) : Nat → K :=
  fun j => if yi ≤ j ∧ j < yi + n then x (xi + (j - yi)) else y j

/-- `blasfeo_dvecse(n, a, y, yi)` (external) -/
def vecse (n : Nat) (a : K) (y : Nat → K) (yi : Nat) : Nat → K :=
  fun j => if yi ≤ j ∧ j < yi + n then a else y j

/-- one stage of the relaxed QP in iteration 0 of a call.
* shared arrays: `set_relaxed_qp_in_matrix_pointers`, ocp_nlp_sqp_with_feasible_qp.c:1283-1296
* `d`, `d_mask`: `ocp_nlp_sqp_wfqp_approximate_feasibility_qp_constraint_vectors`, 1347-1365 (the mask is
  not touched in later iterations)
* objective: `initial_setup_feasibility_qp_objective`, 1393-1440 and 923-927 (`useCon`: the Hessian is
  the constraint Hessian `conH`, otherwise `hs` times the identity; the Levenberg-Marquardt term of the
  constraint Hessian variant is not modelled).

`old` is the previous content, `rev` the array `idxs_rev`, `k = nns[i]`. -/
def relaxStage (useCon : Bool) (conH : Nat → Nat → K) (hs : K) (k : Nat) (rev : Nat → Int)
    (s old : Stage K) : Stage K :=
  let n := s.nb + s.ng
  { nux := s.nux, nb := s.nb, ng := s.ng, ns := s.ns + k
    BAbt := s.BAbt, b := s.b, DCt := s.DCt, idxb := s.idxb, idxs := rev
    d := veccpAt s.ns s.d (2 * n + s.ns) (veccpAt (2 * n + s.ns) s.d 0 old.d 0) (2 * n + s.ns + k)
    mask := vecse (2 * (s.ns + k)) 1 (veccpAt (2 * n) s.mask 0 old.mask 0) (2 * n)
    H := fun r c => if r < s.nux ∧ c < s.nux then
        (if useCon then conH r c else if r = c then hs else 0) else old.H r c
    Z :=
      let z1 := vecse k 0 (vecse k 0 old.Z s.ns) (2 * s.ns + k)
      let a : K := if useCon then 0 else hs
      vecse s.ns a (vecse s.ns a z1 0) (s.ns + k)
    g :=
      let g1 := vecse s.ns 0 (vecse (s.nux + s.ns) 0 old.g 0) (s.nux + s.ns + k)
      vecse k 1 (vecse k 1 g1 (s.nux + s.ns)) (s.nux + 2 * s.ns + k) }

/-- body of the loop of `setup_byrd_omojokun_bounds`, ocp_nlp_sqp_with_feasible_qp.c:1141-1158: `c` is
`constr_index`, `ux` the solution of the (scaled) relaxed QP, `rel` that QP, `F` the relaxation factor -/
def boStep (F : K) (s rel : Stage K) (ux : Nat → K) (d : Nat → K) (c : Nat) : Nat → K :=
  let si := (rel.idxs c).toNat
  let d1 := Function.update d c (d c - F * ux (s.nux + si))
  Function.update d1 (s.nb + s.ng + c) (d1 (s.nb + s.ng + c) - F * ux (s.nux + rel.ns + si))

/-- the nominal (scaled) QP after `setup_byrd_omojokun_bounds`, ocp_nlp_sqp_with_feasible_qp.c:1121-1160 -/
def boStage (F : K) (idxns : List Nat) (s rel : Stage K) (ux : Nat → K) : Stage K :=
  { s with d := idxns.foldl (boStep F s rel ux) s.d }

/-- constraint dimensions and soft indices of all stages -/
structure Soft where
  cd : Nat → CDims
  sbu : Nat → Nat → Nat
  sbx : Nat → Nat → Nat
  sg : Nat → Nat → Nat
  sh : Nat → Nat → Nat

def Soft.idxs (p : Soft) (i : Nat) : Nat → Nat := buildIdxs (p.cd i) (p.sbu i) (p.sbx i) (p.sg i) (p.sh i)

/-- `idxns[i]` and `nns[i]` -/
def Soft.idxns (p : Soft) (i : Nat) : List Nat := idxnsOf (i == 0) (p.cd i) (p.idxs i)
def Soft.nns (p : Soft) (i : Nat) : Nat := (Wfqp.nns (i == 0) (p.cd i)).toNat

/-- the relaxed QP of all stages -/
def relaxQp (useCon : Bool) (conH : Nat → Nat → Nat → K) (hs : K) (p : Soft) (q : Qp K)
    (old : Nat → Stage K) : Qp K :=
  { q with
    st := fun i => relaxStage useCon (conH i) hs (p.nns i) (relRev (i == 0) (p.cd i) (p.idxs i))
      (q.st i) (old i) }

/-- the bound update for all stages: `S` nominal, `R` relaxed QP (both as given to the QP solver) -/
def boQp (F : K) (p : Soft) (S R : Qp K) (ux : Nat → Nat → K) : Qp K :=
  { S with st := fun i => boStage F (p.idxns i) (S.st i) (R.st i) (ux i) }

/-! ## infeasibility measures -/

/-- one stage of `calculate_qp_l1_infeasibility_from_slacks`, ocp_nlp_sqp_with_feasible_qp.c:715-728;
`nsU` is `dims->ns[i]` (user slacks), `k = nns[i]` -/
def l1Slacks (nux nsU k : Nat) (ux : Nat → K) : K :=
  ∑ j ∈ range k, (cmax 0 (ux (nux + nsU + j)) + cmax 0 (ux (nux + 2 * nsU + k + j)))

/-- entry `j` of `tmp_2ni`, ocp_nlp_sqp_with_feasible_qp.c:764-800 -/
def l1Row (nsU k : Nat) (s : Stage K) (ux : Nat → K) (j : Nat) : K :=
  let n := s.nb + s.ng
  let r := if j < n then j else j - n
  let v : K := if r < s.nb then ux (s.idxb r)
    else ∑ c ∈ range s.nux, s.DCt c (r - s.nb) * ux c
  if 0 < nsU ∧ 0 ≤ s.idxs r ∧ s.idxs r < (nsU : Int) then
    (if j < n then v + ux ((s.idxs r).toNat + s.nux)
      else v - ux ((s.idxs r).toNat + s.nux + nsU + k))
  else v

/-- one stage of `calculate_qp_l1_infeasibility_manually`, ocp_nlp_sqp_with_feasible_qp.c:803-826 -/
def l1Manual (nsU k : Nat) (s : Stage K) (ux : Nat → K) : K :=
  ∑ j ∈ range (2 * s.nb + 2 * s.ng),
    if s.mask j = 1 then
      (if j < s.nb + s.ng then cmax 0 (s.d j - l1Row nsU k s ux j)
        else cmax 0 (s.d j + l1Row nsU k s ux j))
    else 0

/-- `calculate_pred_l1_inf`, ocp_nlp_sqp_with_feasible_qp.c:678-695 -/
def predL1 (nominal : Bool) (l1 tolIneq tolEq qpInf : K) : K :=
  if nominal then l1 else if l1 < cmin tolIneq tolEq then 0 else l1 - qpInf

end
end Acados.Wfqp
