import Verif.Model.Num
import Mathlib.Algebra.BigOperators.Ring.Finset
import Mathlib.Algebra.Field.Basic
/-!
# Explicit Runge-Kutta integrator (`acados/sim/sim_erk_integrator.c`)

Work arrays are functions `Nat → K`; pointers into them are offsets.  The CasADi functions of the model
(`expl_ode_fun`, `expl_vde_for`, `expl_vde_for_p`, `expl_vde_adj`) are represented by the right-hand side
`f` and its Jacobians: they are generated code and are assumed to compute the products named in the
comments.  `num_forw_sens = nx + nu` (sim_erk_integrator.c:293, never changed elsewhere).  `nz = 0` and no
algebraic sensitivities, otherwise the program exits (lines 666-681).
-/
namespace Acados.Erk
open Finset
variable {K : Type*} [Field K] [DecidableEq K]

/-- right-hand side `f` and Jacobians with respect to `x`, `u`, `p`; outputs are indexed by naturals
below `nx` (rows) and below `nx`, `nu`, `np` (columns) -/
structure Ode (K : Type*) (nx nu np : Nat) where
  f : (Fin nx → K) → (Fin nu → K) → (Fin np → K) → Nat → K
  fx : (Fin nx → K) → (Fin nu → K) → (Fin np → K) → Nat → Nat → K
  fu : (Fin nx → K) → (Fin nu → K) → (Fin np → K) → Nat → Nat → K
  fp : (Fin nx → K) → (Fin nu → K) → (Fin np → K) → Nat → Nat → K

/-- options and dimensions, sim_erk_integrator.c:649-715; `traj` is `sens_adj | sens_hess` -/
structure Cfg (K : Type*) where
  ns : Nat
  nx : Nat
  nu : Nat
  np : Nat
  numSteps : Nat
  /-- simulation time -/
  T : K
  /-- column-major Butcher matrix -/
  A : Nat → K
  b : Nat → K
  sensForw : Bool
  sensP : Bool
  traj : Bool

/-- `nf`, lines 683-684 -/
def Cfg.nf (c : Cfg K) : Nat := if c.sensForw || c.sensP then c.nx + c.nu else 0
/-- `nf_p`, line 689 -/
def Cfg.nfp (c : Cfg K) : Nat := if c.sensP then c.np else 0
/-- `nX = off_u`, lines 706-707 -/
def Cfg.nX (c : Cfg K) : Nat := c.nx * (1 + c.nf + c.nfp)
/-- `step`, line 715 -/
def Cfg.step (c : Cfg K) : K := c.T / (c.numSteps : K)

/-- writing `len` entries from offset `off` -/
def wr (a : Nat → K) (off len : Nat) (v : Nat → K) : Nat → K := fun q =>
  if off ≤ q ∧ q < off + len then v (q - off) else a q

/-- work arrays of the forward sweep: `out_forw_traj`, `K_traj`, `rhs_forw_in` -/
structure Fw (K : Type*) where
  T : Nat → K
  Kt : Nat → K
  R : Nat → K

/-- what `expl_vde_for` and `expl_vde_for_p` (or `expl_ode_fun`) write for the input array `R`, lines
820-863: the first `nx` entries are `f(x,u)`, column `j` of `Sx` becomes `fx * Sx_j`, column `j` of `Su`
becomes `fx * Su_j + fu_j`, column `j` of `S_p` becomes `fx * Sp_j + fp_j`; `Sx`, `Su`, `S_p` are stored in
this order, column by column, after `x` -/
def rhsFwd (c : Cfg K) (o : Ode K c.nx c.nu c.np) (p : Fin c.np → K) (R : Nat → K) : Nat → K := fun i =>
  let x : Fin c.nx → K := fun k => R k
  let u : Fin c.nu → K := fun k => R (c.nX + k)
  if i < c.nx then o.f x u p i
  else
    let col := (i - c.nx) / c.nx
    let r := (i - c.nx) % c.nx
    (∑ k ∈ range c.nx, o.fx x u p r k * R (c.nx + col * c.nx + k))
      + (if col < c.nx then 0
         else if col < c.nx + c.nu then o.fu x u p r (col - c.nx)
         else o.fp x u p r (col - (c.nx + c.nu)))

/-- lines 806-817: input of stage `s` -/
def stageIn (c : Cfg K) (koff toff s : Nat) (w : Fw K) : Nat → K :=
  (List.range s).foldl (fun R j =>
    let a := c.A (j * c.ns + s)
    if a ≠ 0 then wr R 0 c.nX (fun i => R i + a * c.step * w.Kt (koff + j * c.nX + i)) else R)
    (wr w.R 0 c.nX (fun i => w.T (toff + i)))

/-- one stage, lines 804-866 -/
def stage (F : (Nat → K) → Nat → K) (c : Cfg K) (koff toff : Nat) (w : Fw K) (s : Nat) : Fw K :=
  let R := stageIn c koff toff s w
  { w with R := R, Kt := wr w.Kt (koff + s * c.nX) c.nX (F R) }

/-- lines 867-872 -/
def update (c : Cfg K) (koff toff : Nat) (w : Fw K) : Fw K :=
  { w with T := (List.range c.ns).foldl (fun T s =>
      wr T toff c.nX (fun i => T (toff + i) + c.step * c.b s * w.Kt (koff + s * c.nX + i))) w.T }

/-- offsets of `K_traj` and `forw_traj` in step `istep`, lines 796-802 -/
def koff (c : Cfg K) (istep : Nat) : Nat := if c.traj then istep * c.ns * c.nX else 0
def toff (c : Cfg K) (istep : Nat) : Nat := if c.traj then (istep + 1) * c.nX else 0

/-- one integration step, lines 794-873 -/
def fstep (F : (Nat → K) → Nat → K) (c : Cfg K) (w : Fw K) (istep : Nat) : Fw K :=
  let w1 := if c.traj then { w with T := wr w.T (toff c istep) c.nX (fun i => w.T (toff c istep + i - c.nX)) }
    else w
  update c (koff c istep) (toff c istep)
    ((List.range c.ns).foldl (stage F c (koff c istep) (toff c istep)) w1)

/-- initialisation, lines 780-792; `w0` is the content of the work arrays before the call -/
def fwInit (c : Cfg K) (x : Fin c.nx → K) (u : Fin c.nu → K) (Sin : Nat → K) (w0 : Fw K) : Fw K :=
  let T1 := wr w0.T 0 c.nx (fun i => if h : i < c.nx then x ⟨i, h⟩ else 0)
  let T2 := if c.sensForw || c.sensP then wr T1 c.nx (c.nx * c.nf) Sin else T1
  let T3 := if 0 < c.nfp then wr T2 (c.nx + c.nx * c.nf) (c.nx * c.nfp) (fun _ => 0) else T2
  { T := T3
    Kt := w0.Kt
    R := wr w0.R c.nX c.nu (fun i => if h : i < c.nu then u ⟨i, h⟩ else 0) }

/-- forward sweep, lines 780-873 -/
def forward (c : Cfg K) (o : Ode K c.nx c.nu c.np) (p : Fin c.np → K) (x : Fin c.nx → K) (u : Fin c.nu → K)
    (Sin : Nat → K) (w0 : Fw K) : Fw K :=
  (List.range c.numSteps).foldl (fstep (rhsFwd c o p) c) (fwInit c x u Sin w0)

/-- offset of the final state in `out_forw_traj` -/
def endOff (c : Cfg K) : Nat := if c.traj then c.numSteps * c.nX else 0
/-- `xn`, line 876 -/
def xn (c : Cfg K) (w : Fw K) (i : Nat) : K := w.T (endOff c + i)
/-- `S_forw_out`, lines 877-881 (column-major `nx × nf`) -/
def sForw (c : Cfg K) (w : Fw K) (i : Nat) : K := w.T (endOff c + c.nx + i)
/-- `mem->S_p`, lines 882-887 (column-major `nx × np`) -/
def sP (c : Cfg K) (w : Fw K) (i : Nat) : K := w.T (endOff c + (c.nx + c.nx * c.nf) + i)

/-! ### adjoint sweep -/

/-- work arrays of the adjoint sweep: `out_adj_tmp`, `adj_traj`, `rhs_adj_in` -/
structure Aw (K : Type*) where
  tmp : Nat → K
  traj : Nat → K
  R : Nat → K

/-- what `expl_vde_adj` writes for the input array `R` (`x` at 0, `lam` at `nForw`, `u` at `nForw + nx`),
lines 958-978: `fxᵀ lam` then `fuᵀ lam` -/
def rhsAdj (c : Cfg K) (o : Ode K c.nx c.nu c.np) (p : Fin c.np → K) (nForw : Nat) (R : Nat → K) :
    Nat → K := fun i =>
  let x : Fin c.nx → K := fun k => R k
  let u : Fin c.nu → K := fun k => R (nForw + c.nx + k)
  if i < c.nx then ∑ k ∈ range c.nx, o.fx x u p k i * R (nForw + k)
  else ∑ k ∈ range c.nx, o.fu x u p k (i - c.nx) * R (nForw + k)

/-- lines 924-955: input of the adjoint stage `s`; `ko`, `tq` are the offsets of this step -/
def adjIn (c : Cfg K) (w : Fw K) (nForw nAdj ko tq s : Nat) (q : Aw K) : Nat → K :=
  let R1 := (List.range s).foldl (fun R j =>
    let a := c.A (j * c.ns + s)
    if a ≠ 0 then wr R 0 nForw (fun i => R i + a * c.step * w.Kt (ko + j * c.nX + i)) else R)
    (wr q.R 0 nForw (fun i => w.T (tq + i)))
  (List.range' (s + 1) (c.ns - (s + 1))).foldl (fun R j =>
    let a := c.A (s * c.ns + j)
    if a ≠ 0 then wr R nForw c.nx (fun i => R (nForw + i) + a * c.step * q.traj (j * nAdj + i)) else R)
    (wr R1 nForw c.nx (fun i => c.step * c.b s * q.tmp i))

/-- one adjoint stage, lines 921-1000; `G` writes `nAdj` entries -/
def adjStage (G : (Nat → K) → Nat → K) (c : Cfg K) (w : Fw K) (nForw nAdj ko tq : Nat) (q : Aw K) (s : Nat) :
    Aw K :=
  let R := adjIn c w nForw nAdj ko tq s q
  { q with R := R, traj := wr q.traj (s * nAdj) nAdj (G R) }

/-- lines 1003-1005 -/
def adjUpdate (c : Cfg K) (nAdj : Nat) (q : Aw K) : Aw K :=
  { q with tmp := (List.range c.ns).foldl (fun t s =>
      wr t 0 nAdj (fun i => t i + q.traj (s * nAdj + i))) q.tmp }

/-- one step backwards, lines 915-1007 -/
def adjStep (G : (Nat → K) → Nat → K) (c : Cfg K) (w : Fw K) (nForw nAdj : Nat) (q : Aw K) (istep : Nat) :
    Aw K :=
  adjUpdate c nAdj ((List.range c.ns).reverse.foldl
    (adjStage G c w nForw nAdj (istep * c.ns * c.nX) (istep * c.nX)) q)

/-- adjoint sweep, lines 893-1011, for the function `G` called in the stages and its block sizes: returns
`out_adj_tmp` -/
def adjSweep (G : (Nat → K) → Nat → K) (c : Cfg K) (w : Fw K) (nForw nAdj : Nat) (u : Fin c.nu → K)
    (seed : Nat → K) (q0 : Aw K) : Nat → K :=
  let tmp := wr (wr (wr q0.tmp 0 c.nx seed) c.nx c.nu (fun _ => 0)) (c.nx + c.nu) (nAdj - (c.nx + c.nu))
    (fun _ => 0)
  let R := wr q0.R (nForw + c.nx) c.nu (fun i => if h : i < c.nu then u ⟨i, h⟩ else 0)
  ((List.range c.numSteps).reverse.foldl (adjStep G c w nForw nAdj) ⟨tmp, q0.traj, R⟩).tmp

/-- adjoint sweep without Hessian: returns `S_adj_out` -/
def adjoint (c : Cfg K) (o : Ode K c.nx c.nu c.np) (p : Fin c.np → K) (u : Fin c.nu → K) (seed : Nat → K)
    (w : Fw K) (q0 : Aw K) : Nat → K :=
  adjSweep (rhsAdj c o p c.nx) c w c.nx (c.nx + c.nu) u seed q0

end Acados.Erk
