import Verif.Spec.Irk
import Verif.Model.LiftedIrk
/-!
# Specification of the lifted implicit Runge-Kutta integrator

Several Runge-Kutta steps are one system of equations in the stage values of all steps.  One Newton iteration
for that system, its sensitivities, and its exact solution.  No algebraic variables, no time.
-/
namespace Acados.LiftedIrk
open Matrix
open Acados.Irk (Dims Ext Opts Pt stageOf nextOf atStage tangent Solves Regular)
variable {K : Type*} [Field K] [LinearOrder K] {d : Dims}

/-- stage values of one step -/
abbrev Stages (d : Dims) (K : Type*) := Fin d.s → Fin d.nx → K

/-- a step from `x` with stage values `k` -/
def pt (x : Fin d.nx → K) (k : Stages d K) : Pt d K := ⟨x, k, 0, 0⟩

section
variable (o : Opts K) (h : K) (e : Ext d K) (u : Fin d.nu → K)

/-- the linearised stage equations have a unique solution at every step of the trajectory that starts at `x`
and has the stage values `ks` -/
def RegAlong : List (Stages d K) → (Fin d.nx → K) → Prop
  | [], _ => True
  | k :: ks, x => Regular o h e u (pt x k) ∧ RegAlong ks (nextOf o h x k)

/-- One Newton iteration for the stage equations of all steps: at the trajectory from `x` with stage values
`ks`, the corrected trajectory starts at `y`, has the stage values `ks'` and ends at `yN`.  In every step the
corrected values solve the equations linearised at the uncorrected ones. -/
inductive Newton : List (Stages d K) → (Fin d.nx → K) → (Fin d.nx → K) → List (Stages d K) → (Fin d.nx → K) → Prop
  | nil (x y) : Newton [] x y [] y
  | cons (k k' ks ks' x y yN) :
      (∀ i, atStage o h u (pt x k) i e.f + tangent o h e u (pt x k) (y - x) 0 (k' - k) 0 i = 0) →
      Newton ks (nextOf o h x k) (nextOf o h y k') ks' yN →
      Newton (k :: ks) x y (k' :: ks') yN

/-- linearised steps along the trajectory from `x` with stage values `ks`: a change `(δ, δu)` of initial state
and control changes the final state by `δN` -/
inductive Sens (δu : Fin d.nu → K) : List (Stages d K) → (Fin d.nx → K) → (Fin d.nx → K) → (Fin d.nx → K) → Prop
  | nil (x δ) : Sens δu [] x δ δ
  | cons (k ks x δ δk δN) :
      (∀ i, tangent o h e u (pt x k) δ δu δk 0 i = 0) →
      Sens δu ks (nextOf o h x k) (nextOf o h δ δk) δN →
      Sens δu (k :: ks) x δ δN

/-- exact Runge-Kutta steps from `x` with stage values `ks`, ending at `xN` -/
inductive Exact : List (Stages d K) → (Fin d.nx → K) → (Fin d.nx → K) → Prop
  | nil (x) : Exact [] x x
  | cons (k ks x xN) : Solves o h e u (pt x k) → Exact ks (nextOf o h x k) xN → Exact (k :: ks) x xN
end

/-- `f(x, ẋ, u) = Fx x + Fk ẋ + Fu u + c`, with the Jacobian functions of such an `f` -/
structure AffineOde (e : Ext d K) (Fx Fk : Matrix (Fin (d.nx + d.nz)) (Fin d.nx) K)
    (Fu : Matrix (Fin (d.nx + d.nz)) (Fin d.nu) K) (c : Fin (d.nx + d.nz) → K) : Prop where
  f : ∀ x k u z t, e.f x k u z t = Fx *ᵥ x + Fk *ᵥ k + Fu *ᵥ u + c
  fx : ∀ x k u z t, e.fx x k u z t = Fx
  fk : ∀ x k u z t, e.fk x k u z t = Fk
  fu : ∀ x k u z t, e.fu x k u z t = Fu

/-- stage values of step `i` at which a call linearises: the stored ones; in step 0 they are first moved by the
stored matrix applied to the change of `(x, u)` since the last call -/
def predicted (inp : In d K) (m : Mem d K) (i : Nat) : Stages d K :=
  Irk.kB d (m.k i) + if i = 0 then Irk.kB d (m.D 0 *ᵥ Fin.append (inp.x - m.x) (inp.u - m.u)) else 0

/-- the predicted stage values of `n` steps -/
def predictions (inp : In d K) (m : Mem d K) (n : Nat) : List (Stages d K) := (List.range n).map (predicted inp m)

/-- the stage values of `n` steps held in memory -/
def stored (m : Mem d K) (n : Nat) : List (Stages d K) := (List.range n).map fun i => Irk.kB d (m.k i)

end Acados.LiftedIrk
