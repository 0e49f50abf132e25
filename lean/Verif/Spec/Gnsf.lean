import Verif.Model.Gnsf
/-!
# Specification of the GNSF integrator

The implicit Runge-Kutta (IRK) scheme for a system in generalized nonlinear static feedback (GNSF) form,
written directly with the user's column-major model matrices.
-/
namespace Acados.Gnsf
open Matrix
variable {K : Type*} [Field K] [LinearOrder K]

/-- exactness of a factorisation with row pivoting: `L U` is the row permuted matrix, `Linv`, `Uinv` are
the inverses of the factors -/
def IsLu {ι : Type*} [Fintype ι] [DecidableEq ι] (M : Matrix ι ι K) (lu : Lu ι K) : Prop :=
  lu.L * lu.U = M.submatrix lu.perm id ∧ lu.L * lu.Linv = 1 ∧ lu.U * lu.Uinv = 1

/-- entry `(i, j)` of a user matrix stored column-major with leading dimension `ld`, where `pr`, `pc` give
the row and column numbers -/
def user {ι κ : Type*} (a : Nat → K) (ld : Nat) (pr : ι → Nat) (pc : κ → Nat) : Matrix ι κ K :=
  fun i j => a (pr i + ld * pc j)

/-- rows of the `(x1, z1)` system: first the `nx1` differential, then the `nz1` algebraic ones -/
def row1 (d : Dims) : Fin d.nx1 ⊕ Fin d.nz1 → Nat
  | .inl i => i
  | .inr i => d.nx1 + i

/-- rows of the linear output system: first `nx2`, then `nz2` -/
def row2 (d : Dims) : Fin d.nx2 ⊕ Fin d.nz2 → Nat
  | .inl i => i
  | .inr i => d.nx2 + i

/-- stage value `x + dt ∑_i a_{ji} k_i`; `A_mat` is column-major, `a_{ji} = A_mat[j + s i]` -/
def stageOf {s n : Nat} (o : Opts K) (dt : K) (x : Fin n → K) (k : Fin s → Fin n → K) (j : Fin s) :
    Fin n → K := fun r => x r + dt * ∑ i : Fin s, o.A_mat (j.val + s * i.val) * k i r

/-- next state `x + dt ∑_i b_i k_i` -/
def nextOf {s n : Nat} (o : Opts K) (dt : K) (x : Fin n → K) (k : Fin s → Fin n → K) : Fin n → K :=
  fun r => x r + dt * ∑ i : Fin s, o.b_vec i.val * k i r

/-- `E (ẋ1, z1) = A x1 + B u + C v + c` at a stage -/
def Lin1 (d : Dims) (m : Mdl K) (x k : Fin d.nx1 → K) (z : Fin d.nz1 → K) (u : Fin d.nu → K)
    (v : Fin d.no → K) : Prop :=
  user m.E (d.nx1 + d.nz1) (row1 d) (row1 d) *ᵥ Sum.elim k z
    = user m.A (d.nx1 + d.nz1) (row1 d) Fin.val *ᵥ x + user m.B (d.nx1 + d.nz1) (row1 d) Fin.val *ᵥ u
      + user m.C (d.nx1 + d.nz1) (row1 d) Fin.val *ᵥ v + fun r => m.c (row1 d r)

/-- the input of the nonlinearity, `y = L_x x1 + L_xdot ẋ1 + L_z z1` -/
def yOf (d : Dims) (m : Mdl K) (x k : Fin d.nx1 → K) (z : Fin d.nz1 → K) : Fin d.ny → K :=
  user m.L_x d.ny Fin.val Fin.val *ᵥ x + user m.L_xdot d.ny Fin.val Fin.val *ᵥ k
    + user m.L_z d.ny Fin.val Fin.val *ᵥ z

/-- `E_LO (ẋ2, z2) = A_LO x2 + B_LO u + c_LO + f` at a stage -/
def Lin2 (d : Dims) (m : Mdl K) (x2 : Fin d.nx2 → K) (k2 : Fin d.nx2 ⊕ Fin d.nz2 → K) (u : Fin d.nu → K)
    (f : Fin d.nx2 ⊕ Fin d.nz2 → K) : Prop :=
  user m.E_LO (d.nx2 + d.nz2) (row2 d) (row2 d) *ᵥ k2
    = user m.A_LO (d.nx2 + d.nz2) (row2 d) Fin.val *ᵥ x2
      + user m.B_LO (d.nx2 + d.nz2) (row2 d) Fin.val *ᵥ u + (fun r => m.c_LO (row2 d r)) + f

/-- One IRK step for the GNSF system from `(x1, x2)` to `(x1', x2')`: stage derivatives `k1`, `k2` and
stage algebraic variables `z1` exist that satisfy the system at every stage, up to the defect
`r = v - φ(y)` of the nonlinearity; `r = 0` is an exact step. -/
structure IrkStep (d : Dims) (m : Mdl K) (o : Opts K) (dt : K) (e : Ext d K)
    (x1 : Fin d.nx1 → K) (x2 : Fin d.nx2 → K) (u : Fin d.nu → K)
    (k1 : Fin d.s → Fin d.nx1 → K) (z1 : Fin d.s → Fin d.nz1 → K)
    (k2 : Fin d.s → Fin d.nx2 ⊕ Fin d.nz2 → K)
    (r : Fin d.s → Fin d.no → K) (x1' : Fin d.nx1 → K) (x2' : Fin d.nx2 → K) : Prop where
  lin1 : ∀ j, Lin1 d m (stageOf o dt x1 k1 j) (k1 j) (z1 j) u
    (e.phi (yOf d m (stageOf o dt x1 k1 j) (k1 j) (z1 j)) (user m.L_u d.nuh Fin.val Fin.val *ᵥ u) + r j)
  lin2 : ∀ j, Lin2 d m (stageOf o dt x2 (fun i c => k2 i (Sum.inl c)) j) (k2 j) u
    (if m.nontrivial_f_LO then e.flo (stageOf o dt x1 k1 j) (k1 j) (z1 j) u else 0)
  next1 : x1' = nextOf o dt x1 k1
  next2 : x2' = nextOf o dt x2 (fun i c => k2 i (Sum.inl c))

/-- defect `v - φ(y, L_u u)` of the nonlinearity at stage `j` -/
def defect (d : Dims) (m : Mdl K) (o : Opts K) (dt : K) (e : Ext d K) (x1 : Fin d.nx1 → K)
    (u : Fin d.nu → K) (k1 : Fin d.s → Fin d.nx1 → K) (z1 : Fin d.s → Fin d.nz1 → K)
    (v : Fin d.s → Fin d.no → K) (j : Fin d.s) : Fin d.no → K :=
  v j - e.phi (yOf d m (stageOf o dt x1 k1 j) (k1 j) (z1 j)) (user m.L_u d.nuh Fin.val Fin.val *ᵥ u)

/-- consecutive IRK steps, each starting where the previous one ended -/
inductive IrkRun (d : Dims) (m : Mdl K) (o : Opts K) (dt : K) (e : Ext d K) (u : Fin d.nu → K) :
    (Fin d.nx1 → K) → (Fin d.nx2 → K) → List (StepOut d K) → Prop where
  | nil (x1 x2) : IrkRun d m o dt e u x1 x2 []
  | cons (x1 x2 s l) : IrkStep d m o dt e x1 x2 u (fun j r => s.k1 (j, r)) (fun j r => s.z1 (j, r))
        (fun j r => s.k2 (j, r))
        (defect d m o dt e x1 u (fun j r => s.k1 (j, r)) (fun j r => s.z1 (j, r)) (fun j r => s.v (j, r)))
        s.x1 s.x2 →
      IrkRun d m o dt e u s.x1 s.x2 l → IrkRun d m o dt e u x1 x2 (s :: l)

/-- Newton's method for `F v = 0` with derivative `J`, at most `n` iterations, stopping early when a
positive tolerance exceeds all components of an update: `NewtonRun F J tol n v v'` -/
inductive NewtonRun {ι : Type*} [Fintype ι] (F : (ι → K) → ι → K) (J : (ι → K) → Matrix ι ι K) (tol : K) :
    Nat → (ι → K) → (ι → K) → Prop where
  | out (v) : NewtonRun F J tol 0 v v
  | stop (n v δ) : J v *ᵥ δ = F v → 0 < tol → (∀ a, |δ a| < tol) → NewtonRun F J tol (n + 1) v (v - δ)
  | more (n v δ v') : J v *ᵥ δ = F v → (tol ≤ 0 ∨ ∃ a, tol ≤ |δ a|) → NewtonRun F J tol n (v - δ) v' →
      NewtonRun F J tol (n + 1) v v'

/-- The IRK step linearised at the point `(x1, u, k1, z1)` in the direction `(δx1, δx2, δu)`: the
equations of `IrkStep` with every function replaced by its Jacobian (`phi_y`, `phi_u`, `flo_x`, `flo_k`,
`flo_z`, `flo_u`) at the stage values, and constants dropped. -/
structure LinStep (d : Dims) (m : Mdl K) (o : Opts K) (dt : K) (e : Ext d K)
    (x1 : Fin d.nx1 → K) (u : Fin d.nu → K) (k1 : Fin d.s → Fin d.nx1 → K) (z1 : Fin d.s → Fin d.nz1 → K)
    (δx1 : Fin d.nx1 → K) (δx2 : Fin d.nx2 → K) (δu : Fin d.nu → K)
    (δk1 : Fin d.s → Fin d.nx1 → K) (δz1 : Fin d.s → Fin d.nz1 → K)
    (δk2 : Fin d.s → Fin d.nx2 ⊕ Fin d.nz2 → K) (δx1' : Fin d.nx1 → K) (δx2' : Fin d.nx2 → K) : Prop where
  lin1 : ∀ j, user m.E (d.nx1 + d.nz1) (row1 d) (row1 d) *ᵥ Sum.elim (δk1 j) (δz1 j)
    = user m.A (d.nx1 + d.nz1) (row1 d) Fin.val *ᵥ stageOf o dt δx1 δk1 j
      + user m.B (d.nx1 + d.nz1) (row1 d) Fin.val *ᵥ δu
      + user m.C (d.nx1 + d.nz1) (row1 d) Fin.val *ᵥ
        (e.phi_y (yOf d m (stageOf o dt x1 k1 j) (k1 j) (z1 j)) (user m.L_u d.nuh Fin.val Fin.val *ᵥ u)
            *ᵥ yOf d m (stageOf o dt δx1 δk1 j) (δk1 j) (δz1 j)
          + e.phi_u (yOf d m (stageOf o dt x1 k1 j) (k1 j) (z1 j)) (user m.L_u d.nuh Fin.val Fin.val *ᵥ u)
            *ᵥ (user m.L_u d.nuh Fin.val Fin.val *ᵥ δu))
  lin2 : ∀ j, user m.E_LO (d.nx2 + d.nz2) (row2 d) (row2 d) *ᵥ δk2 j
    = user m.A_LO (d.nx2 + d.nz2) (row2 d) Fin.val *ᵥ stageOf o dt δx2 (fun i c => δk2 i (Sum.inl c)) j
      + user m.B_LO (d.nx2 + d.nz2) (row2 d) Fin.val *ᵥ δu
      + (if m.nontrivial_f_LO then
          e.flo_x (stageOf o dt x1 k1 j) (k1 j) (z1 j) u *ᵥ stageOf o dt δx1 δk1 j
          + e.flo_k (stageOf o dt x1 k1 j) (k1 j) (z1 j) u *ᵥ δk1 j
          + e.flo_z (stageOf o dt x1 k1 j) (k1 j) (z1 j) u *ᵥ δz1 j
          + e.flo_u (stageOf o dt x1 k1 j) (k1 j) (z1 j) u *ᵥ δu else 0)
  next1 : δx1' = nextOf o dt δx1 δk1
  next2 : δx2' = nextOf o dt δx2 (fun i c => δk2 i (Sum.inl c))

/-- linearised steps along a list of steps taken from `x1`, from the tangent `(δx1, δx2)` to `(τ1, τ2)` -/
inductive LinRun (d : Dims) (m : Mdl K) (o : Opts K) (dt : K) (e : Ext d K) (u δu : Fin d.nu → K) :
    (Fin d.nx1 → K) → List (StepOut d K) → (Fin d.nx1 → K) → (Fin d.nx2 → K) →
    (Fin d.nx1 → K) → (Fin d.nx2 → K) → Prop where
  | nil (x1 δx1 δx2) : LinRun d m o dt e u δu x1 [] δx1 δx2 δx1 δx2
  | cons (x1 s l δx1 δx2 δk1 δz1 δk2 σ1 σ2 τ1 τ2) :
      LinStep d m o dt e x1 u (fun j r => s.k1 (j, r)) (fun j r => s.z1 (j, r)) δx1 δx2 δu δk1 δz1 δk2 σ1 σ2 →
      LinRun d m o dt e u δu s.x1 l σ1 σ2 τ1 τ2 → LinRun d m o dt e u δu x1 (s :: l) δx1 δx2 τ1 τ2

end Acados.Gnsf
