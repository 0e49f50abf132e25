import Verif.Model.Irk
/-!
# Algebraic outputs of the implicit Runge-Kutta integrator

`neville_algorithm` (`acados/utils/math.c`) and `sim_irk_compute_z_and_algebraic_sens`
(`acados/sim/sim_irk_integrator.c:960-1168`).
-/
namespace Acados.Irk
open Matrix
open Acados.Gnsf (Lu solveV solveM)
variable {K : Type*} [Field K] [LinearOrder K]

/-- inner loop of `neville_algorithm`, math.c:1178-1183 (the two assignments to `Q[j]` in one) -/
def nevRow (xx : K) (n : Nat) (x : Nat → K) (i : Nat) (Q : Nat → K) : Nat → K :=
  loop i (fun j Q => Function.update Q j
    (((xx - x j) * Q (j + 1) - (xx - x (j + n - i + 1)) * Q j) / (x (j + n - i + 1) - x j))) Q

/-- `neville_algorithm(xx, n, x, Q, out)`, math.c:1172-1186; the outer loop variable is `i = n - m` -/
def neville (xx : K) (n : Nat) (x Q : Nat → K) : K :=
  loop n (fun m Q => nevRow xx n x (n - m) Q) Q 0

section
variable (d : Dims) (o : Opts K) (t0 : K) (e : Ext d K) (u : Fin d.nu → K)

/-- `out->zn` by interpolation, sim_irk_integrator.c:1021-1033; `k` is the stage vector of the first step
(the call is at line 2042-2045 for `ss == 0`) -/
def zOut (k : Fin (nK d) → K) : Fin d.nz → K := fun ii =>
  neville 0 (d.s - 1) o.c_vec (fun jj => rd k (d.nx * d.s + d.nz * jj + ii.val))

/-- initial guess for `xdot` at the beginning of the step, lines 1083-1096 -/
def xdotOut (k : Fin (nK d) → K) : Fin d.nx → K := fun ii =>
  neville 0 (d.s - 1) o.c_vec (fun jj => rd k (d.nx * jj + ii.val))

/-- `out->S_algebraic` by interpolation, lines 1003-1019; `D` is `dK_dxu` of the first step -/
def sAlg (D : Matrix (Fin (nK d)) (Fin (d.nx + d.nu)) K) : Matrix (Fin d.nz) (Fin (d.nx + d.nu)) K :=
  fun ii jj => - neville 0 (d.s - 1) o.c_vec (fun kk => rd2 D (d.nx * d.s + kk * d.nz + ii.val) jj.val)

/-- `df_dxdotz`, lines 1109-1110 (also 1143-1144); `w` previous content -/
def dfdxdotz (x xdot : Fin d.nx → K) (z : Fin d.nz → K) (w : Matrix (Fin (d.nx + d.nz)) (Fin (d.nx + d.nz)) K) :
    Matrix (Fin (d.nx + d.nz)) (Fin (d.nx + d.nz)) K :=
  gecpsc (d.nx + d.nz) d.nz 1 (e.fz x xdot u z t0) 0 0
    (gecpsc (d.nx + d.nz) d.nx 1 (e.fk x xdot u z t0) 0 0 w 0 0) 0 d.nx

/-- state of the extra Newton iterations of `exact_z_output` -/
structure ExSt (d : Dims) (K : Type*) where
  xdot : Fin d.nx → K
  zn : Fin d.nz → K
  rG : Fin (d.nx + d.nz) → K
  lu : Lu (Fin (d.nx + d.nz)) K

/-- iteration `ii`, lines 1100-1129.  `impl_ode_res_out.xi` is never set in C (line 1056); the model takes it
to be zero, which is what the rest of the code expects. -/
def exIter (g1 : Matrix (Fin (d.nx + d.nz)) (Fin (d.nx + d.nz)) K → Lu (Fin (d.nx + d.nz)) K)
    (w : Matrix (Fin (d.nx + d.nz)) (Fin (d.nx + d.nz)) K) (x : Fin d.nx → K) (ii : Nat) (st : ExSt d K) :
    ExSt d K :=
  let fresh := ii == 0 || !o.jac_reuse
  let r := if fresh then e.f x st.xdot u st.zn t0 else st.rG
  let lu := if fresh then g1 (dfdxdotz d t0 e u x st.xdot st.zn w) else st.lu
  let r := solveV lu r
  let xdot := daxpy d.nx (-1) r 0 st.xdot 0
  let xdot := dveccp d.nx r 0 xdot 0
  let z : Fin d.nz → K := fun jj => rd r (d.nx + jj.val)
  ⟨xdot, st.zn - z, r, lu⟩

/-- all iterations, lines 1083-1130 -/
def exRun (g1 : Matrix (Fin (d.nx + d.nz)) (Fin (d.nx + d.nz)) K → Lu (Fin (d.nx + d.nz)) K)
    (w : Matrix (Fin (d.nx + d.nz)) (Fin (d.nx + d.nz)) K) (x : Fin d.nx → K) (k : Fin (nK d) → K)
    (rg : Fin (d.nx + d.nz) → K) (lu : Lu (Fin (d.nx + d.nz)) K) : ExSt d K :=
  loop o.newton_iter (exIter d o t0 e u g1 w x) ⟨xdotOut d o k, zOut d o k, rg, lu⟩

/-- `S_algebraic` with `exact_z_output`, lines 1133-1163 -/
def sAlgEx (g1 : Matrix (Fin (d.nx + d.nz)) (Fin (d.nx + d.nz)) K → Lu (Fin (d.nx + d.nz)) K)
    (w : Matrix (Fin (d.nx + d.nz)) (Fin (d.nx + d.nz)) K)
    (w2 : Matrix (Fin (d.nx + d.nz)) (Fin (d.nx + d.nu)) K) (x xdot : Fin d.nx → K) (z : Fin d.nz → K) :
    Matrix (Fin d.nz) (Fin (d.nx + d.nu)) K :=
  let R := gecpsc (d.nx + d.nz) d.nu 1 (e.fu x xdot u z t0) 0 0
    (gecpsc (d.nx + d.nz) d.nx 1 (e.fx x xdot u z t0) 0 0 w2 0 0) 0 d.nx
  let R := solveM (g1 (dfdxdotz d t0 e u x xdot z w)) R
  fun i j => rd2 (-R) (d.nx + i.val) j.val

end
end Acados.Irk
