import Verif.Spec.QpSlack
/-!
# Slacks of the constraints of a QP solution, norms of residuals

`acados/ocp_qp/ocp_qp_common.c` lines 556-665 and 874-919: `ocp_qp_compute_t`, `ocp_qp_res_compute` (the part before the call of
HPIPM), `ocp_qp_res_compute_nrm_inf`; `acados/dense_qp/dense_qp_common.c` lines 344-385: `dense_qp_compute_t`.

Vectors are functions of the index; an operation that reads and writes the same vector reads the old entries (the regions do not
overlap).  `idxs_rev = -1` is `none`.
-/
namespace Acados.QpSlack
open Finset
variable {K : Type} [Field K] [LinearOrder K]

/-- writing `n` entries from `off` -/
def wr (t : Nat → K) (off n : Nat) (v : Nat → K) : Nat → K := fun q => if off ≤ q ∧ q < off + n then v (q - off) else t q

/-- body of the loop over softened constraints, ocp_qp_common.c:908-914, dense_qp_common.c:373-379 -/
def softStep (s : Stage K) (v : Nat → K) (t : Nat → K) (jj : Nat) : Nat → K :=
  match s.rev jj with
  | none => t
  | some k =>
    let t1 := wr t jj 1 (fun _ => t jj + v (s.nv + k))
    wr t1 (s.nb + s.ng + jj) 1 (fun _ => t1 (s.nb + s.ng + jj) + v (s.nv + s.ns + k))

/-- `t` for bounds and linear constraints, ocp_qp_common.c:894-914, dense_qp_common.c:357-379 -/
def hardSoft (s : Stage K) (v t : Nat → K) : Nat → K :=
  let nbg := s.nb + s.ng
  let t1 := wr t nbg s.nb (fun i => v (s.idxb i))
  let t2 := wr t1 0 s.nb (fun i => t1 (nbg + i) - s.d i)
  let t3 := wr t2 nbg s.nb (fun i => -t2 (nbg + i) - s.d (nbg + i))
  let t4 := wr t3 s.nb s.ng (fun i => (∑ k ∈ range s.nv, s.Ct k i * v k) - s.d (s.nb + i))
  let t5 := wr t4 (2 * s.nb + s.ng) s.ng (fun i => -(∑ k ∈ range s.nv, s.Ct k i * v k) - s.d (2 * s.nb + s.ng + i))
  (List.range (s.nb + s.ng)).foldl (softStep s v) t5

/-- `ocp_qp_compute_t` for one stage, ocp_qp_common.c:892-918 -/
def computeT (s : Stage K) (v t : Nat → K) : Nat → K :=
  let t6 := hardSoft s v t
  wr t6 (2 * s.nb + 2 * s.ng) (2 * s.ns) (fun i => v (s.nv + i) - s.d (2 * s.nb + 2 * s.ng + i))

/-- `dense_qp_compute_t`, dense_qp_common.c:344-385: the slacks are copied first, then the bounds are subtracted -/
def denseComputeT (s : Stage K) (v t : Nat → K) : Nat → K :=
  let t6 := hardSoft s v t
  let t7 := wr t6 (2 * s.nb + 2 * s.ng) (2 * s.ns) (fun i => v (s.nv + i))
  wr t7 (2 * s.nb + 2 * s.ng) (2 * s.ns) (fun i => t7 (2 * s.nb + 2 * s.ng + i) - s.d (2 * s.nb + 2 * s.ng + i))

/-- the part of `ocp_qp_out` that is used: solution, slacks and flag `t_computed` -/
structure Out (K : Type) where
  v : Nat → Nat → K
  t : Nat → Nat → K
  flag : Bool

/-- `ocp_qp_res_compute` before the residuals are computed, ocp_qp_common.c:560-566 -/
def ensureT (N : Nat) (s : Nat → Stage K) (o : Out K) : Out K :=
  if o.flag then o
  else { o with t := fun k => if k ≤ N then computeT (s k) (o.v k) (o.t k) else o.t k, flag := true }

/-- `ocp_qp_out_set_to_zero`, ocp_qp_common.c:423-446: solution and slacks of stages `0..N`; the flag is not touched
(multipliers are left out) -/
def setToZero (N : Nat) (s : Nat → Stage K) (o : Out K) : Out K :=
  { o with
    v := fun k => if k ≤ N then wr (o.v k) 0 ((s k).nv + 2 * (s k).ns) (fun _ => 0) else o.v k
    t := fun k => if k ≤ N then wr (o.t k) 0 (2 * ((s k).nb + (s k).ng + (s k).ns)) (fun _ => 0) else o.t k }

/-- `blasfeo_dvecnrm_inf` -/
def nrmInf (n : Nat) (x : Nat → K) : K := (List.range n).foldl (fun a i => max a |x i|) 0

/-- dimensions of a QP -/
structure Dims where
  N : Nat
  nx : Nat → Nat
  nu : Nat → Nat
  nb : Nat → Nat
  ng : Nat → Nat
  ns : Nat → Nat

/-- lengths summed in ocp_qp_common.c:643-655: `nvt`, `net`, `nct` -/
def lengths (d : Dims) : Nat × Nat × Nat :=
  let a := (List.range d.N).foldl (fun (a : Nat × Nat × Nat) ii =>
    (a.1 + (d.nx ii + d.nu ii + 2 * d.ns ii), a.2.1 + d.nx (ii + 1), a.2.2 + (2 * d.nb ii + 2 * d.ng ii + 2 * d.ns ii))) (0, 0, 0)
  (a.1 + (d.nx d.N + d.nu d.N + 2 * d.ns d.N), a.2.1, a.2.2 + (2 * d.nb d.N + 2 * d.ng d.N + 2 * d.ns d.N))

/-- the four norms, ocp_qp_common.c:657-661; the arguments are the arrays that begin with the vector of stage 0 -/
def norms (d : Dims) (g b dd m : Nat → K) : K × K × K × K :=
  let l := lengths d
  (nrmInf l.1 g, nrmInf l.2.1 b, nrmInf l.2.2 dd, nrmInf l.2.2 m)

end Acados.QpSlack
