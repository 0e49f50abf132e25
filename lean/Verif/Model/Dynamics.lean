import Mathlib.Algebra.BigOperators.Ring.Finset
import Mathlib.Algebra.Field.Defs
/-!
# Dynamics modules (`ocp_nlp_dynamics_cont.c`, `ocp_nlp_dynamics_disc.c`)

`double *` arrays are functions of the flat index, BLASFEO vectors and matrices functions of the index or of row and
column.  The integrator behind the continuous module is a parameter (its models are in `Erk`, `Gnsf*`, `Irk*`): a
function of options, inputs, its own memory and the previous content of the output arrays.
-/
namespace Acados.Dyn
open Finset
variable {K : Type*} [Field K] {M : Type*}

/-- dimensions of a shooting interval; `nx1`, `nu1` belong to the next stage -/
structure Dims where
  nx : Nat
  nu : Nat
  nz : Nat
  nx1 : Nat
  nu1 : Nat

/-- `sim_in` as far as the module fills it -/
structure SimIn (K : Type*) where
  x : Nat → K
  u : Nat → K
  /-- forward seed, column-major -/
  Sforw : Nat → K
  identity : Bool
  Sadj : Nat → K

/-- `sim_out` -/
structure SimOut (K : Type*) where
  xn : Nat → K
  zn : Nat → K
  /-- column-major, `nx1` rows, columns for `(x, u)` -/
  Sforw : Nat → K
  /-- order `(x, u)` -/
  Sadj : Nat → K
  /-- column-major, order `(x, u)` -/
  Shess : Nat → K
  /-- column-major, `nz` rows, columns for `(x, u)` -/
  Salg : Nat → K

/-- sensitivity options of the integrator -/
structure SimOpts where
  forw : Bool
  adj : Bool
  hess : Bool
  /-- options the module never touches (`cost_computation`, number of steps, ...) -/
  other : Nat
  deriving DecidableEq

/-- an integrator: `evaluate` (output arrays, memory, status) and `memory_set(..., "guesses_blasfeo", ...)` -/
structure Sim (K M : Type*) where
  evaluate : SimOpts → SimIn K → M → SimOut K → SimOut K × M × Nat
  setGuess : (Nat → K) → M → M

/-- module memory, work space and the parts of the NLP memory it points to -/
structure Mem (K M : Type*) where
  BAbt : Nat → Nat → K
  fn : Nat → K
  adj : Nat → K
  dzduxt : Nat → Nat → K
  zAlg : Nat → K
  RSQ : Nat → Nat → K
  /-- `work->hess` -/
  hess : Nat → Nat → K
  /-- `set_sim_guess[0]` -/
  setGuess : Bool
  guess : Nat → K
  simIn : SimIn K
  simOut : SimOut K
  sim : M
  opts : SimOpts

/-- module options -/
structure Opts where
  computeAdj : Bool
  computeHess : Bool

/-- the variables the pointers lead to -/
structure Vars (K : Type*) where
  ux : Nat → K
  ux1 : Nat → K
  pi : Nat → K

/-- `blasfeo_unpack_dvec(n, x, xi, a, 1)`: the first `n` entries of the array are overwritten -/
def unpack (n : Nat) (x : Nat → K) (xi : Nat) (a : Nat → K) (k : Nat) : K := if k < n then x (xi + k) else a k

/-- `blasfeo_pack_dvec(n, a, 1, x, xi)` -/
def pack (n : Nat) (a : Nat → K) (x : Nat → K) (xi : Nat) (k : Nat) : K := if xi ≤ k ∧ k < xi + n then a (k - xi) else x k

/-- `blasfeo_pack_tran_dmat(m, n, A, lda, B, bi, bj)`: `B[bi + j, bj + i] = A[i + lda j]` for `i < m`, `j < n` -/
def packTran (m n : Nat) (A : Nat → K) (lda : Nat) (B : Nat → Nat → K) (bi bj r c : Nat) : K :=
  if bi ≤ r ∧ r < bi + n ∧ bj ≤ c ∧ c < bj + m then A ((c - bj) + lda * (r - bi)) else B r c

/-- `blasfeo_pack_dmat(m, n, A, lda, B, bi, bj)`: `B[bi + i, bj + j] = A[i + lda j]` -/
def packMat (m n : Nat) (A : Nat → K) (lda : Nat) (B : Nat → Nat → K) (bi bj r c : Nat) : K :=
  if bi ≤ r ∧ r < bi + m ∧ bj ≤ c ∧ c < bj + n then A ((r - bi) + lda * (c - bj)) else B r c

/-- the two seed loops, ocp_nlp_dynamics_cont.c:829-832, as they are (array writes) -/
def seedForw (d : Dims) (a : Nat → K) : Nat → K :=
  let z := (List.range (d.nx1 * (d.nx + d.nu))).foldl (fun a jj => Function.update a jj 0) a
  (List.range d.nx1).foldl (fun a jj => Function.update a (jj * (d.nx + 1)) 1) z

/-- adjoint seed, ocp_nlp_dynamics_cont.c:836-838: zero, then `nx1` multipliers -/
def seedAdj (d : Dims) (pi a : Nat → K) : Nat → K :=
  unpack d.nx1 pi 0 ((List.range (d.nx + d.nu)).foldl (fun a jj => Function.update a jj 0) a)

/-- state and control to the integrator (807-808) -/
def passXU (d : Dims) (v : Vars K) (s : SimIn K) : SimIn K :=
  { s with u := unpack d.nu v.ux 0 s.u, x := unpack d.nx v.ux d.nu s.x }

/-- handing over the guess once, ocp_nlp_dynamics_cont.c:813-819 -/
def passGuess (sm : Sim K M) (m : Mem K M) : Mem K M :=
  if m.setGuess then { m with sim := sm.setGuess m.guess m.sim, setGuess := false } else m

/-- the call of the integrator; its status is discarded (841-842) -/
def runSim (sm : Sim K M) (o : SimOpts) (m : Mem K M) : Mem K M :=
  let r := sm.evaluate o m.simIn m.sim m.simOut
  { m with simOut := r.1, sim := r.2.1 }

/-- packed adjoint: `-(S_adj in order (u, x))`, then the multipliers (868-879, 1068-1074) -/
def packAdj (d : Dims) (v : Vars K) (Sadj adj : Nat → K) : Nat → K :=
  let a1 := pack d.nu (fun k => Sadj (d.nx + k)) adj 0
  let a2 := pack d.nx Sadj a1 d.nu
  let a3 : Nat → K := fun k => if k < d.nu + d.nx then -1 * a2 k else a2 k
  pack d.nx1 v.pi a3 (d.nu + d.nx)

/-- adjoint from the Jacobian: `-BAbt pi`, then the multipliers (875-880) -/
def gemvAdj (d : Dims) (v : Vars K) (BAbt : Nat → Nat → K) (adj : Nat → K) : Nat → K :=
  let a1 : Nat → K := fun k => if k < d.nu + d.nx then -1 * ∑ c ∈ range d.nx1, BAbt k c * v.pi c else adj k
  pack d.nx1 v.pi a1 (d.nu + d.nx)

/-- `blasfeo_daxpy(nx1, -1.0, ux1, nu1, fun, 0, fun, 0)` after packing (`fun = next - x[next stage]`) -/
def gap (d : Dims) (v : Vars K) (xn fn : Nat → K) (k : Nat) : K := if k < d.nx1 then -1 * v.ux1 (d.nu1 + k) + xn k else fn k

/-- `ocp_nlp_dynamics_cont_update_qp_matrices`, ocp_nlp_dynamics_cont.c:789-894 (without the propagated cost, for that
see `Acados.Hess.dynWrite`) -/
def contUpdate (d : Dims) (o : Opts) (sm : Sim K M) (v : Vars K) (m : Mem K M) : Mem K M :=
  let m1 := passGuess sm { m with simIn := passXU d v m.simIn }
  let m2 := { m1 with simIn := { m1.simIn with
    Sforw := seedForw d m1.simIn.Sforw, identity := true, Sadj := seedAdj d v.pi m1.simIn.Sadj } }
  let m3 := runSim sm m.opts m2
  let out := m3.simOut
  let B := packTran d.nx1 d.nu (fun k => out.Sforw (d.nx1 * d.nx + k)) d.nx1 m3.BAbt 0 0
  let BA := packTran d.nx1 d.nx out.Sforw d.nx1 B d.nu 0
  let dzu := packTran d.nz d.nu (fun k => out.Salg (d.nx * d.nz + k)) d.nz m3.dzduxt 0 0
  let dz := packTran d.nz d.nx out.Salg d.nz dzu d.nu 0
  let adj := if o.computeAdj then
      (if m.opts.adj then packAdj d v out.Sadj m3.adj else gemvAdj d v BA m3.adj)
    else m3.adj
  let nv := d.nx + d.nu
  let h1 := packMat d.nu d.nu (fun k => out.Shess (nv * d.nx + d.nx + k)) nv m3.hess 0 0
  let h2 := packMat d.nx d.nu (fun k => out.Shess (nv * d.nx + k)) nv h1 d.nu 0
  let h3 := packMat d.nx d.nx out.Shess nv h2 d.nu d.nu
  { m3 with
    BAbt := BA
    dzduxt := dz
    fn := gap d v out.xn m3.fn
    zAlg := pack d.nz out.zn m3.zAlg 0
    adj := adj
    hess := if o.computeHess then h3 else m3.hess
    RSQ := if o.computeHess then fun r c => if r < nv ∧ c < nv then h3 r c else m3.RSQ r c else m3.RSQ }

/-- `ocp_nlp_dynamics_cont_compute_fun`, ocp_nlp_dynamics_cont.c:928-996 -/
def contFun (d : Dims) (sm : Sim K M) (v : Vars K) (m : Mem K M) : Mem K M :=
  let m1 := passGuess sm { m with simIn := passXU d v m.simIn }
  -- backup, set to false
  let bf := m1.opts.forw
  let ba := m1.opts.adj
  let bh := m1.opts.hess
  let m2 := { m1 with opts := { m1.opts with forw := false, adj := false, hess := false } }
  let m3 := runSim sm m2.opts m2
  -- restore
  let m4 := { m3 with opts := { m3.opts with forw := bf, adj := ba, hess := bh } }
  { m4 with fn := gap d v m4.simOut.xn m4.fn }

/-- `ocp_nlp_dynamics_cont_compute_fun_and_adj`, ocp_nlp_dynamics_cont.c:1001-1077 -/
def contFunAdj (d : Dims) (sm : Sim K M) (v : Vars K) (m : Mem K M) : Mem K M :=
  let m1 := passGuess sm { m with simIn := passXU d v m.simIn }
  let m1' := { m1 with simIn := { m1.simIn with Sadj := seedAdj d v.pi m1.simIn.Sadj } }
  let bf := m1'.opts.forw
  let ba := m1'.opts.adj
  let bh := m1'.opts.hess
  let m2 := { m1' with opts := { m1'.opts with forw := false, hess := false, adj := true } }
  let m3 := runSim sm m2.opts m2
  let m4 := { m3 with opts := { m3.opts with forw := bf, adj := ba, hess := bh } }
  { m4 with fn := gap d v m4.simOut.xn m4.fn, adj := packAdj d v m4.simOut.Sadj m4.adj }

/-! ## Discrete dynamics -/

/-- generated functions: value; value and transposed Jacobian (rows `(u, x)`); the same with the Hessian weighted by the
multipliers.  Arguments: `x`, `u` (and multipliers). -/
structure DiscFun (K : Type*) where
  fn : (Nat → K) → (Nat → K) → Nat → K
  fnJac : (Nat → K) → (Nat → K) → (Nat → K) × (Nat → Nat → K)
  fnJacHess : (Nat → K) → (Nat → K) → (Nat → K) → (Nat → K) × (Nat → Nat → K) × (Nat → Nat → K)

/-- memory of the discrete module: what it writes -/
structure DMem (K : Type*) where
  BAbt : Nat → Nat → K
  fn : Nat → K
  adj : Nat → K
  RSQ : Nat → Nat → K
  /-- `work->tmp_nv_nv` -/
  tmp : Nat → Nat → K

/-- writing an external function's matrix output of size `m × n` at the origin -/
def wrMat (m n : Nat) (A B : Nat → Nat → K) (r c : Nat) : K := if r < m ∧ c < n then A r c else B r c

/-- `ocp_nlp_dynamics_disc_update_qp_matrices`, ocp_nlp_dynamics_disc.c:660-755 -/
def discUpdate (d : Dims) (o : Opts) (f : DiscFun K) (v : Vars K) (m : DMem K) : DMem K :=
  let x : Nat → K := fun k => v.ux (d.nu + k)
  let u : Nat → K := fun k => v.ux k
  let nv := d.nu + d.nx
  let m1 : DMem K := if o.computeHess then
      let r := f.fnJacHess x u v.pi
      { m with fn := pack d.nx1 r.1 m.fn 0, BAbt := wrMat nv d.nx1 r.2.1 m.BAbt, RSQ := wrMat nv nv r.2.2 m.RSQ }
    else
      let r := f.fnJac x u
      { m with fn := pack d.nx1 r.1 m.fn 0, BAbt := wrMat nv d.nx1 r.2 m.BAbt }
  { m1 with
    fn := gap d v m1.fn m1.fn
    adj := if o.computeAdj then gemvAdj d v m1.BAbt m1.adj else m1.adj }

/-- `ocp_nlp_dynamics_disc_compute_fun`, ocp_nlp_dynamics_disc.c:760-812 -/
def discFun (d : Dims) (f : DiscFun K) (v : Vars K) (m : DMem K) : DMem K :=
  let fn := pack d.nx1 (f.fn (fun k => v.ux (d.nu + k)) (fun k => v.ux k)) m.fn 0
  { m with fn := gap d v fn fn }

/-- `ocp_nlp_dynamics_disc_compute_fun_and_adj`, ocp_nlp_dynamics_disc.c:865-932 -/
def discFunAdj (d : Dims) (o : Opts) (f : DiscFun K) (v : Vars K) (m : DMem K) : DMem K :=
  let r := f.fnJac (fun k => v.ux (d.nu + k)) (fun k => v.ux k)
  let fn := pack d.nx1 r.1 m.fn 0
  let tmp := wrMat (d.nu + d.nx) d.nx1 r.2 m.tmp
  { m with
    fn := gap d v fn fn
    tmp := tmp
    adj := if o.computeAdj then gemvAdj d v tmp m.adj else m.adj }

end Acados.Dyn
