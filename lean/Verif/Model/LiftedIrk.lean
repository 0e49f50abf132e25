import Verif.Model.Irk
/-!
# Lifted implicit Runge-Kutta integrator (`acados/sim/sim_lifted_irk_integrator.c`)

The lifted scheme takes one Newton iteration per call; the stage values `K` and their derivatives `JKf` stay
in memory between calls.  Residuals, Jacobians and factorisations are the definitions of
`Verif/Model/Irk.lean` with `nz = 0`; the generated functions get no time argument (`ext_fun_in` has the four
entries `x`, `xdot`, `u` and a placeholder for `z`, lines 724-728), modelled by passing the time 0.
`mem->update_sens` is 1 from `memory_assign` on (line 421) and nothing changes it, so only that branch is
modelled.  Timings are left out.
-/
namespace Acados.LiftedIrk
open Matrix
open Acados.Irk (Dims Ext Opts nK)
open Acados.Gnsf (Lu solveV solveM)
variable {K : Type*} [Field K] [LinearOrder K]

/-- the tableau with the time argument of the stages fixed to 0 -/
def noT (o : Opts K) : Opts K := { o with c_vec := fun _ => 0 }

/-- the part of `sim_lifted_irk_memory` that survives a call: `K`, `JKf` (one per step), `x`, `u` -/
structure Mem (d : Dims) (K : Type*) where
  k : Nat → Fin (nK d) → K
  D : Nat → Matrix (Fin (nK d)) (Fin (d.nx + d.nu)) K
  x : Fin d.nx → K
  u : Fin d.nu → K

/-- `sim_lifted_irk_memory_assign`, lines 400-421 -/
def Mem.init (d : Dims) (K : Type*) [Field K] : Mem d K := ⟨fun _ => 0, fun _ => 0, 0, 0⟩

/-- `sim_lifted_irk_memory_set_to_zero`, lines 465-481 -/
def Mem.setToZero {d : Dims} (n : Nat) (m : Mem d K) : Mem d K :=
  { m with k := fun i => if i < n then 0 else m.k i }

/-- `sim_in` -/
structure In (d : Dims) (K : Type*) where
  x : Fin d.nx → K
  u : Fin d.nu → K
  S : Matrix (Fin d.nx) (Fin (d.nx + d.nu)) K
  ident : Bool
  T : K

/-- `sim_opts` as far as read here -/
structure LOpts (K : Type*) where
  o : Opts K
  num_steps : Nat
  tableau_size : Nat
  output_z : Bool
  sens_algebraic : Bool
  sens_hess : Bool
  sens_adj : Bool

/-- variables of the loop over the steps: memory, `xn`, `xn_out`, `dxn`, `S_forw`, content of `rG` -/
structure St (d : Dims) (K : Type*) where
  mem : Mem d K
  xn : Fin d.nx → K
  xnOut : Fin d.nx → K
  dxn : Fin d.nx → K
  S : Matrix (Fin d.nx) (Fin (d.nx + d.nu)) K
  rG : Fin (nK d) → K

section
variable (d : Dims) (o : Opts K) (h : K) (e : Ext d K)
  (g : Matrix (Fin (nK d)) (Fin (nK d)) K → Lu (Fin (nK d)) K) (inp : In d K)

/-- the step `w` in `x` and `u` since the last call, lines 783-787 -/
def dw (m : Mem d K) : Fin (d.nx + d.nu) → K := Fin.append (inp.x - m.x) (inp.u - m.u)

/-- expansion step: `K[ss] += JKf[ss] * w`, line 788 -/
def expand (m : Mem d K) (ss : Nat) : Fin (nK d) → K := m.k ss + m.D ss *ᵥ dw d inp m

/-- `rG += JGf[:, :nx] * dxn`, line 895 -/
def addDx (G : Matrix (Fin (nK d)) (Fin (d.nx + d.nu)) K) (dx : Fin d.nx → K) (r : Fin (nK d) → K) :
    Fin (nK d) → K :=
  fun a => r a + ∑ l ∈ Finset.range d.nx, Irk.rd2 G a.val l * Irk.rd dx l

/-- one iteration of the loop over the steps, lines 775-966 -/
def lstep (ss : Nat) (st : St d K) : St d K :=
  let k := expand d inp st.mem ss
  let G := Irk.dGdxu d (noT o) h 0 e inp.u 0 st.xn k 0
  let r := Irk.rG d (noT o) h 0 e inp.u 0 st.xn k st.rG
  let δ := solveV (g (Irk.dGdK d (noT o) h 0 e inp.u 0 st.xn k)) (addDx d G st.dxn r)
  let k' := k - δ
  let D := Irk.dKdxu d (noT o) h 0 e inp.u g 0 (inp.ident && ss == 0) st.xn k 0 st.S
  { mem := ⟨Function.update st.mem.k ss k', Function.update st.mem.D ss D, inp.x, inp.u⟩
    xn := Irk.nextX d o h st.xn k
    dxn := Irk.loop d.s (fun ii x => Irk.daxpy d.nx (-h * o.b_vec ii) δ (ii * d.nx) x 0) st.dxn
    S := Irk.forwNext d o h D st.S
    xnOut := Irk.nextX d o h st.xnOut k'
    rG := δ }

/-- the loop over the steps, line 773 -/
def run : Nat → Nat → St d K → St d K
  | 0, _, st => st
  | n + 1, ss, st => run n (ss + 1) (lstep d o h e g inp ss st)
end

/-- `sim_lifted_irk`, lines 653-986; `none` is `exit(1)`.  Result: `out->xn`, `out->S_forw`, the memory. -/
def call (d : Dims) (lo : LOpts K) (e : Ext d K) (g : Matrix (Fin (nK d)) (Fin (nK d)) K → Lu (Fin (nK d)) K)
    (inp : In d K) (m : Mem d K) :
    Option ((Fin d.nx → K) × Matrix (Fin d.nx) (Fin (d.nx + d.nu)) K × Mem d K) :=
  if d.s ≠ lo.tableau_size then none
  else if d.nz ≠ 0 then none
  else if lo.output_z then none
  else if lo.sens_algebraic then none
  else if lo.sens_hess then none
  else if lo.sens_adj then none
  else
    let r := run d lo.o (inp.T / lo.num_steps) e g inp lo.num_steps 0 ⟨m, inp.x, inp.x, 0, inp.S, 0⟩
    some (r.xnOut, r.S, r.mem)

end Acados.LiftedIrk
