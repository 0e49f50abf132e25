import Verif.Spec.AutoCost
/-!
# `detect_cost_type`

`/repo/interfaces/acados_template/acados_template/acados_ocp.py`, lines 2399-2560.

Simplifications: the CasADi expression is given by what the code asks about it (see `Expr`); numbers are elements of an ordered
field; `np.linalg.solve` is a function that returns a vector or raises; the five random points are arbitrary; the order in which
Python lists the elements of an intersection of sets is arbitrary (`order`); the dimensions `ny`, which are also stored, are part of
the result; printing is not modelled.
-/
namespace Acados.AutoCost
open Finset Acados.CostForm
variable {K : Type} [Field K] [LinearOrder K]

/-- the cost expression: `tests` is the outcome of `is_quadratic` for `x`, `u`, `z` and `which_depends` for the parameters (lines
2429-2431), `isZero` is `expr_cost.is_zero()`, `form` are the coefficients if the Hessian is constant; otherwise `Hxuz_fun` has
free variables and its creation raises -/
structure Expr (K : Type) where
  tests : Bool
  isZero : Bool
  form : Option (Quad K)

inductive Stage | initial | path | terminal
  deriving DecidableEq

/-- outcome: exception (the description is not changed before line 2508), EXTERNAL, LINEAR_LS -/
inductive Res (K : Type) | raised | external | linear (l : LS K)

/-- the environment of a call -/
structure Env (K : Type) where
  order : List Nat → List Nat
  solve : Nat → (Nat → Nat → K) → (Nat → K) → Option (Nat → K)
  /-- `x0`, `u0`, `z0` of the five checks -/
  pts : List ((Nat → K) × (Nat → K) × (Nat → K))
  tol : K

/-- lines 2448-2451: variables with a nonzero row of the Hessian -/
def xuzIdx (n : Nat) (H : Nat → Nat → K) : List Nat := (List.range n).filter fun a => (List.range n).any fun b => decide (H a b ≠ 0)

/-- lines 2453-2455: `list(set(range(lo, lo + m)) & set(xuz_idx))` -/
def part (E : Env K) (lo m : Nat) (idx : List Nat) : List Nat := E.order ((List.range' lo m).filter fun a => decide (a ∈ idx))

/-- lines 2464-2480: a row of `Vx`, `Vu` or `Vz` is a unit vector; `off` rows belong to the earlier blocks -/
def unitRow (l : List Nat) (off lo : Nat) (i j : Nat) : K := if off ≤ i ∧ l[i - off]? = some (lo + j) then 1 else 0

/-- lines 2466, 2472, 2478: `H_xuz[idx, xuz_idx] / 2` -/
def wRow (H : Nat → Nat → K) (rows idx : List Nat) (i j : Nat) : K := H (rows.getD i 0) (idx.getD j 0) / 2

/-- lines 2501-2506: relative error; `0/0` is not larger than the tolerance -/
def badErr (tol a b : K) : Bool := decide (max |a| |b| ≠ 0 ∧ tol < |a - b| / max |a| |b|)

/-- lines 2489-2493: `yᵀ W y` -/
def llsVal (ny nx nu nz : Nat) (Vx Vu Vz W : Nat → Nat → K) (yref x u z : Nat → K) : K :=
  let y := fun i => -yref i + (∑ j ∈ range nx, Vx i j * x j) + (∑ j ∈ range nu, Vu i j * u j) + ∑ j ∈ range nz, Vz i j * z j
  ∑ i ∈ range ny, y i * ∑ j ∈ range ny, W i j * y j

/-- `np.any(V)` -/
def anyEntry (ny m : Nat) (V : Nat → Nat → K) : Bool := (List.range ny).any fun i => (List.range m).any fun j => decide (V i j ≠ 0)

/-- lines 2512-2539: the terminal cost may not depend on `u`, `z` -/
def store (st : Stage) (nu nz : Nat) (l : LS K) : Res K :=
  if st = .terminal then
    if anyEntry l.ny nu l.Vu then .raised
    else if anyEntry l.ny nz l.Vz then .raised
    else .linear { l with Vu := fun _ _ => 0, Vz := fun _ _ => 0 }
  else .linear l

/-- `detect_cost_type`, lines 2399-2560 -/
def detect (E : Env K) (st : Stage) (nx nu nz : Nat) (e : Expr K) : Res K :=
  if e.tests then
    if e.isZero then store st nu nz ⟨0, fun _ _ => 0, fun _ _ => 0, fun _ _ => 0, fun _ _ => 0, fun _ => 0⟩
    else match e.form with
      | none => .raised
      | some q =>
        let idx := xuzIdx (nx + nu + nz) q.H
        let xs := part E 0 nx idx
        let us := part E nx nu idx
        let zs := part E (nx + nu) nz idx
        let ny := idx.length
        let Vx : Nat → Nat → K := unitRow xs 0 0
        let Vu : Nat → Nat → K := unitRow us xs.length nx
        let Vz : Nat → Nat → K := unitRow zs (xs.length + us.length) (nx + nu)
        let W := wRow q.H (xs ++ us ++ zs) idx
        match E.solve ny W (fun i => -(1 / 2) * q.g (idx.getD i 0)) with
        | none => .raised
        | some yref =>
          if E.pts.any fun P => badErr E.tol (llsVal ny nx nu nz Vx Vu Vz W yref P.1 P.2.1 P.2.2)
              (q.at (nx + nu + nz) (stack nx nu P.1 P.2.1 P.2.2)) then .raised
          else store st nu nz ⟨ny, Vx, Vu, Vz, fun i j => 2 * W i j, yref⟩
  else .external

end Acados.AutoCost
