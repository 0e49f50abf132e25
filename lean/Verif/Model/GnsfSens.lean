import Verif.Model.Gnsf
/-!
# GNSF integrator: sensitivities (`acados/sim/sim_gnsf.c`)

Matrices with columns `(x1, u)` or `(x1, x2, u)` in C are split by column block here; all operations used
act on columns independently.
-/
namespace Acados.Gnsf
open Matrix
variable {K : Type*} [Field K] [LinearOrder K]

section Fwd
variable (d : Dims) (m : Mdl K) (o : Opts K) (dt : K) (p : Pre d K) (e : Ext d K)

/-- `J_r_x1u`, columns of `x1`, sim_gnsf.c:2712-2714 -/
def Jrx (x1 : Fin d.nx1 → K) (u : Fin d.nu → K) (v : VV d → K) : Matrix (VV d) (Fin d.nx1) K :=
  fun a b => -(e.phi_y (blk (yy d p x1 u v) a.1) (uhat d m u) * rowBlk a.1 p.YYx) a.2 b
/-- `J_r_x1u`, columns of `u`, sim_gnsf.c:2715-2720 -/
def Jru (x1 : Fin d.nx1 → K) (u : Fin d.nu → K) (v : VV d → K) : Matrix (VV d) (Fin d.nu) K :=
  fun a b => -(e.phi_y (blk (yy d p x1 u v) a.1) (uhat d m u) * rowBlk a.1 p.YYu) a.2 b
    - (e.phi_u (blk (yy d p x1 u v) a.1) (uhat d m u) * LuM d m) a.2 b

/-- Jacobian blocks of `f_lo` at the stages of one step, stored in `f_LO_jac_traj[ss]`,
sim_gnsf.c:2637-2656; columns `[x1, x1dot, u, z]` -/
structure FloJac (d : Dims) (K : Type*) where
  x : Fin d.s → Matrix (XZ2 d) (Fin d.nx1) K
  k : Fin d.s → Matrix (XZ2 d) (Fin d.nx1) K
  u : Fin d.s → Matrix (XZ2 d) (Fin d.nu) K
  z : Fin d.s → Matrix (XZ2 d) (Fin d.nz1) K

/-- sim_gnsf.c:2637-2656 -/
def floJac (x1 : Fin d.nx1 → K) (u : Fin d.nu → K) (s : StepOut d K) : FloJac d K where
  x := fun j => e.flo_x (blk (x1stage d o dt x1 s.k1) j) (blk s.k1 j) (blk s.z1 j) u
  k := fun j => e.flo_k (blk (x1stage d o dt x1 s.k1) j) (blk s.k1 j) (blk s.z1 j) u
  u := fun j => e.flo_u (blk (x1stage d o dt x1 s.k1) j) (blk s.k1 j) (blk s.z1 j) u
  z := fun j => e.flo_z (blk (x1stage d o dt x1 s.k1) j) (blk s.k1 j) (blk s.z1 j) u

/-- `J_G2_K1`, sim_gnsf.c:2752-2763 (and 2884-2892); `w` is the previous content -/
def JG2K1 (F : FloJac d K) (w : Matrix (K2 d) (K1 d) K) : Matrix (K2 d) (K1 d) K :=
  stages d.s (fun M ii =>
    addBlk (-1) ii ii (F.k ii)
      (stages d.s (fun M jj => setBlk ii jj ((- Adt o dt (ii.val + jj.val * d.s)) • F.x ii) M) M)) w

/-- one row block after the other: block `ii` of the result is `B ii` -/
def stackF {μ ν : Type*} (s : Nat) (B : Fin s → Matrix μ ν K) : Matrix (Fin s × μ) ν K :=
  fun a c => B a.1 a.2 c

/-- sensitivities of one step -/
structure Sens (d : Dims) (K : Type*) where
  dK1_dx1 : Matrix (K1 d) (Fin d.nx1) K
  dK1_du : Matrix (K1 d) (Fin d.nu) K
  dZ_dx1 : Matrix (Z1 d) (Fin d.nx1) K
  dZ_du : Matrix (Z1 d) (Fin d.nu) K
  dK2_dx1 : Matrix (K2 d) (Fin d.nx1) K
  dK2_dx2 : Matrix (K2 d) (Fin d.nx2) K
  dK2_du : Matrix (K2 d) (Fin d.nu) K
  /-- blocks of `dxf_dwn` -/
  x1x1 : Matrix (Fin d.nx1) (Fin d.nx1) K
  x1u : Matrix (Fin d.nx1) (Fin d.nu) K
  x2x1 : Matrix (Fin d.nx2) (Fin d.nx1) K
  x2x2 : Matrix (Fin d.nx2) (Fin d.nx2) K
  x2u : Matrix (Fin d.nx2) (Fin d.nu) K

/-- `dst + ∑ b_dt[ii] * (row block ii of M)`, rows `nx1`, the loop of `blasfeo_dgead` -/
def addStages1 {ν : Type*} (M : Matrix (K1 d) ν K) (dst : Matrix (Fin d.nx1) ν K) :
    Matrix (Fin d.nx1) ν K :=
  stages d.s (fun D ii => D + bdt o dt ii.val • rowBlk ii M) dst
/-- the same for the first `nx2` rows of the stage blocks of `K2` -/
def addStages2 {ν : Type*} (M : Matrix (K2 d) ν K) (dst : Matrix (Fin d.nx2) ν K) :
    Matrix (Fin d.nx2) ν K :=
  stages d.s (fun D ii => D + bdt o dt ii.val • (rowBlk ii M).submatrix Sum.inl id) dst

/-- forward sensitivities of one step, sim_gnsf.c:2686-2828.  `wJ` and `wK` are the contents of `J_G2_K1`
and `dK2_dx1` before (the latter is zeroed by the workspace cast, sim_gnsf.c:1780). -/
def sensStep (g : Matrix (VV d) (VV d) K → Lu (VV d) K) (x1 : Fin d.nx1 → K) (u : Fin d.nu → K)
    (s : StepOut d K) (wJ : Matrix (K2 d) (K1 d) K) : Sens d K :=
  let lu := g (Jrvv d m p e x1 u s.v)
  let solx := solveM lu (Jrx d m p e x1 u s.v)
  let solu := solveM lu (Jru d m p e x1 u s.v)
  let dK1x := -(p.KKv * solx) + p.KKx
  let dK1u := -(p.KKv * solu) + p.KKu
  let dZx := -(p.ZZv * solx) + p.ZZx
  let dZu := -(p.ZZv * solu) + p.ZZu
  let F := floJac d o dt e x1 u s
  let J := JG2K1 d o dt F wJ
  -- sim_gnsf.c:2764-2798
  let dK2x1 := if m.nontrivial_f_LO then
      solveM p.m2 ((-(J * dK1x) + stackF d.s (fun ii => F.z ii * rowBlk ii dZx)) + stackF d.s F.x)
    else 0
  let dK2u := if m.nontrivial_f_LO then
      solveM p.m2 ((-(J * dK1u) + stackF d.s (fun ii => F.z ii * rowBlk ii dZu + BLO d m)) + stackF d.s F.u)
    else p.dK2_du
  { dK1_dx1 := dK1x, dK1_du := dK1u, dZ_dx1 := dZx, dZ_du := dZu
    dK2_dx1 := dK2x1, dK2_dx2 := p.dK2_dx2, dK2_du := dK2u
    -- sim_gnsf.c:2801-2828
    x1x1 := addStages1 d o dt dK1x 1
    x1u := addStages1 d o dt dK1u 0
    x2x1 := if m.nontrivial_f_LO then addStages2 d o dt dK2x1 0 else 0
    x2x2 := if m.nontrivial_f_LO then addStages2 d o dt p.dK2_dx2 1 else p.dx2f_dx2
    x2u := if m.nontrivial_f_LO then addStages2 d o dt dK2u 0 else p.dx2f_du }

/-- derivative with respect to `(x1, x2)`: `dxf_dwn`, first `nx` columns -/
def Sens.dx {d : Dims} (S : Sens d K) : Matrix (Fin d.nx1 ⊕ Fin d.nx2) (Fin d.nx1 ⊕ Fin d.nx2) K :=
  Matrix.fromBlocks S.x1x1 0 S.x2x1 S.x2x2
/-- derivative with respect to `u`: `dxf_dwn`, last `nu` columns -/
def Sens.du {d : Dims} (S : Sens d K) : Matrix (Fin d.nx1 ⊕ Fin d.nx2) (Fin d.nu) K :=
  Matrix.fromRows S.x1u S.x2u

/-- forward sensitivity matrix `[S_x, S_u]` -/
structure Forw (d : Dims) (K : Type*) where
  x : Matrix (Fin d.nx1 ⊕ Fin d.nx2) (Fin d.nx1 ⊕ Fin d.nx2) K
  u : Matrix (Fin d.nx1 ⊕ Fin d.nx2) (Fin d.nu) K

/-- update of `S_forw`, sim_gnsf.c:2829-2842; `ident` is `in->identity_seed && ss == 0` -/
def chain (ident : Bool) (S : Sens d K) (F : Forw d K) : Forw d K :=
  if ident then ⟨S.dx, S.du⟩ else ⟨S.dx * F.x, S.dx * F.u + S.du⟩

/-- forward sensitivities along the step loop (steps as in `simulate` with `sens = true`) -/
def forwLoop (g : Matrix (VV d) (VV d) K → Lu (VV d) K) (u : Fin d.nu → K) (wJ : Matrix (K2 d) (K1 d) K) :
    Bool → (Fin d.nx1 → K) → List (StepOut d K) → Forw d K → Forw d K
  | _, _, [], F => F
  | ident, x1, s :: l, F =>
    forwLoop g u wJ false s.x1 l (chain d ident (sensStep d m o dt p e g x1 u s wJ) F)

/-! ### adjoint -/

/-- adjoint variable `(λ_x1, λ_x2, λ_u)` -/
structure Adj (d : Dims) (K : Type*) where
  x1 : Fin d.nx1 → K
  x2 : Fin d.nx2 → K
  u : Fin d.nu → K

/-- one pass of the adjoint loop, sim_gnsf.c:2863-3004.  `wV` is the content of `dK2_dvv` and `wX` that of
`dK2_dx1` when the pass starts (only used when `f_LO` is trivial); `wJ` that of `J_G2_K1`. -/
def adjStep (g : Matrix (VV d) (VV d) K → Lu (VV d) K) (x1 : Fin d.nx1 → K) (u : Fin d.nu → K)
    (s : StepOut d K) (wJ : Matrix (K2 d) (K1 d) K) (wV : Matrix (K2 d) (VV d) K)
    (wX : Matrix (K2 d) (Fin d.nx1) K) (l : Adj d K) : Adj d K :=
  let F := floJac d o dt e x1 u s
  let J := JG2K1 d o dt F wJ
  -- sim_gnsf.c:2868-2911
  let dvv := solveM p.m2 (if m.nontrivial_f_LO then
      -(J * p.KKv) + stackF d.s (fun ii => F.z ii * rowBlk ii p.ZZv) else wV)
  let dx1 := solveM p.m2 (if m.nontrivial_f_LO then
      (-(J * p.KKx) + stackF d.s (fun ii => F.z ii * rowBlk ii p.ZZx)) + stackF d.s F.x else wX)
  let du := if m.nontrivial_f_LO then
      solveM p.m2 ((-(J * p.KKu) + stackF d.s (fun ii => F.z ii * rowBlk ii p.ZZu + BLO d m)) + stackF d.s F.u)
    else p.dK2_du
  -- sim_gnsf.c:2925-2943
  let psi1v := addStages1 d o dt p.KKv 0
  let psi2v := addStages2 d o dt dvv 0
  let psi11 := addStages1 d o dt p.KKx 1
  let psi21 := addStages2 d o dt dx1 0
  let psi22 := addStages2 d o dt p.dK2_dx2 1
  let psi1u := addStages1 d o dt p.KKu 0
  let psi2u := addStages2 d o dt du 0
  -- sim_gnsf.c:2986-2992
  let lv := solveT (g (Jrvv d m p e x1 u s.v)) (psi1vᵀ *ᵥ l.x1 + psi2vᵀ *ᵥ l.x2)
  -- sim_gnsf.c:2996-3006
  { x1 := -((Jrx d m p e x1 u s.v)ᵀ *ᵥ lv) + (psi11ᵀ *ᵥ l.x1 + psi21ᵀ *ᵥ l.x2)
    x2 := psi22ᵀ *ᵥ l.x2
    u := -((Jru d m p e x1 u s.v)ᵀ *ᵥ lv) + ((psi1uᵀ *ᵥ l.x1 + psi2uᵀ *ᵥ l.x2) + l.u) }

/-- adjoint loop, backwards over the steps taken, sim_gnsf.c:2865-3007; the contents of `dK2_dvv`,
`dK2_dx1` and `J_G2_K1` at the start of each pass are given by `w` -/
def adjLoop (g : Matrix (VV d) (VV d) K → Lu (VV d) K) (u : Fin d.nu → K)
    (wJ : Matrix (K2 d) (K1 d) K) (wV : Matrix (K2 d) (VV d) K) (wX : Matrix (K2 d) (Fin d.nx1) K) :
    (Fin d.nx1 → K) → List (StepOut d K) → Adj d K → Adj d K
  | _, [], l => l
  | x1, s :: rest, l => adjStep d m o dt p e g x1 u s wJ wV wX (adjLoop g u wJ wV wX s.x1 rest l)

/-! ### fully linear models -/

/-- what `sim_gnsf_precompute` leaves in `S_forw` for a fully linear model, sim_gnsf.c:1162-1173: the
result of a call with the identity seed, or the seed itself when `sens_forw` is off -/
def storedForw (g : Matrix (VV d) (VV d) K → Lu (VV d) K) (sens : Bool) (wJ : Matrix (K2 d) (K1 d) K)
    (n : Nat) (lu : Lu (VV d) K) (v0 : VV d → K) (x1 : Fin d.nx1 → K) (x2 : Fin d.nx2 → K)
    (u : Fin d.nu → K) : Forw d K :=
  let l := simulate d m o dt p e g sens u n true lu v0 x1 x2
  if sens then forwLoop d m o dt p e g u wJ true x1 l ⟨1, 0⟩ else ⟨1, 0⟩

/-- `xf` of later calls for a fully linear model, sim_gnsf.c:2345-2349 -/
def linearX (F : Forw d K) (x : Fin d.nx1 ⊕ Fin d.nx2 → K) (u : Fin d.nu → K) :
    Fin d.nx1 ⊕ Fin d.nx2 → K := F.u *ᵥ u + F.x *ᵥ x

/-- `S_forw_new` of later calls, sim_gnsf.c:2351-2372; `w` is the content of `S_forw_new` before -/
def linearForw (F : Forw d K) (ident : Bool) (seed w : Forw d K) : Forw d K :=
  if ident then F else ⟨F.x * seed.x, F.x * seed.u + w.u⟩

/-- `lambda` of later calls, sim_gnsf.c:2375 -/
def linearAdj (F : Forw d K) (lx : Fin d.nx1 ⊕ Fin d.nx2 → K) :
    (Fin d.nx1 ⊕ Fin d.nx2 → K) × (Fin d.nu → K) := (F.xᵀ *ᵥ lx, F.uᵀ *ᵥ lx)
end Fwd
end Acados.Gnsf
