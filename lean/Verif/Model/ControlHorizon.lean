import Verif.Spec.ControlHorizon
import Mathlib.Algebra.Order.Field.Basic
/-!
# Control horizon

`interfaces/acados_template/acados_template/mpc_utils.py` lines 665-762: `create_ocp_with_control_horizon`, and what the multi-phase
problem it returns means (acados_multiphase_ocp.py, model of C88: initial data are those of the first phase, terminal data those of
the last).

Simplifications: `Nr` is not negative; the cost is weighted by the time steps (the default of `cost_scaling`); constraints with
matrices `C`, `D` are absent (their column dimension is not adapted to the second phase).
-/
namespace Acados.ControlHorizon
variable {X U K : Type} [Field K] [LinearOrder K]
open Finset

/-- stages of the three phases: the given problem, the transition (lines 697-705), the augmented problem (lines 707-741) -/
inductive Kind
  | normal
  | trans
  | aug
  deriving DecidableEq, Repr

/-- options of the problem that are read and written here: `N_horizon`, `tf`, `time_steps` -/
structure Opts (K : Type) where
  N : Nat
  tf : K
  steps : Option (List K)
  deriving DecidableEq

inductive Res (K : Type)
  | raises
  /-- the problem itself is returned -/
  | same
  /-- a multi-phase problem with these stages and time steps -/
  | mocp (l : List (Kind × K))
  deriving DecidableEq

/-- the stages of lines 743-760 (`N_list` and `time_steps`); for `Nc = 1` the first phase is absent -/
def stages (Ts : K) (Np Nc Nr : Nat) : List (Kind × K) :=
  List.replicate (Nc - 1) (.normal, Ts) ++ (.trans, 0) :: List.replicate (Nr + 1) (.aug, Ts * ((Np : K) - (Nc : K)) / (Nr : K))

/-- `create_ocp_with_control_horizon`, lines 684-762; the second component are the options of the given problem afterwards:
`mocp.solver_options = ocp.solver_options` (lines 746, 755) is the same object, so the new time steps are also those of the problem -/
def create (o : Opts K) (Nc : Int) (Nr : Option Nat) : Res K × Opts K :=
  if o.N = 0 then (.raises, o)
  else
    let Ts := o.tf / (o.N : K)
    if Nc = (o.N : Int) then (.same, o)
    else if Nc > (o.N : Int) then (.raises, o)
    else if Nc ≤ 0 then (.raises, o)
    else
      let nc := Nc.toNat
      let nr := match Nr with
        | none => o.N - nc
        | some n => if n = 0 then o.N - nc else n
      let l := stages Ts o.N nc nr
      (.mocp l, { o with steps := some (l.map (·.2)) })

/-- what `AcadosMultiphaseOcp.make_consistent` does with the options (acados_multiphase_ocp.py 426-427 and, for each phase,
acados_ocp.py 1021-1024): the number of stages is stored in the options, which are those of the given problem; the sum of the time
steps may not be larger than `tf` -/
def makeConsistent (l : List (Kind × K)) (o : Opts K) : Option (Opts K) :=
  let tf := (l.map (·.2)).sum
  if (tf - o.tf) / tf > 1 / 10 ^ 13 then none else some { o with N := l.length }

/-- conditions of stage `k`: dynamics and constraints; `x` states, `u` controls of the first two phases, `v` the part of the state of
the third phase that holds the control.  Normal stages have all constraints of the problem, the transition has the bounds on controls
(lines 703-705), the third phase has all but these (lines 730-741); the initial stage of the first phase has the initial data -/
def stageOk (p : Prob X U K) (k : Nat) (s : Kind × K) (x : Nat → X) (v u : Nat → U) : Prop :=
  match s.1 with
  | .normal => x (k + 1) = p.step s.2 (x k) (u k) ∧ p.B (u k) ∧ if k = 0 then p.C0 (x k) (u k) else p.C (x k) (u k)
  | .trans => x (k + 1) = x k ∧ v (k + 1) = u k ∧ p.B (u k)
  | .aug => x (k + 1) = p.step s.2 (x k) (v k) ∧ v (k + 1) = v k ∧ p.C (x k) (v k)

/-- feasible trajectories of the multi-phase problem -/
def MFeasible (p : Prob X U K) (l : List (Kind × K)) (x : Nat → X) (v u : Nat → U) : Prop :=
  p.start (x 0) ∧ (∀ (k : Nat) (s : Kind × K), l[k]? = some s → stageOk p k s x v u) ∧ p.CT (x l.length)

/-- cost of a stage; the transition has no cost -/
def stageCost (p : Prob X U K) (k : Nat) (s : Kind × K) (x : Nat → X) (v u : Nat → U) : K :=
  match s.1 with
  | .normal => s.2 * if k = 0 then p.l0 (x k) (u k) else p.l (x k) (u k)
  | .trans => 0
  | .aug => s.2 * p.l (x k) (v k)

def mcost (p : Prob X U K) (l : List (Kind × K)) (x : Nat → X) (v u : Nat → U) : K :=
  (∑ k ∈ range l.length, (l[k]?).elim 0 fun s => stageCost p k s x v u) + p.lT (x l.length)

/-- right-hand sides of the third phase: explicit (line 712), implicit (lines 713-716), discrete (line 718) -/
def augExpl {V W : Type} [AddCommGroup W] (f : V → W → V) : V × W → V × W := fun z => (f z.1 z.2, 0)
def augImpl {V W : Type} (F : V → V → W → V) : V × W → V × W → V × W := fun d z => (F d.1 z.1 z.2, d.2)
def augDisc {V W : Type} (f : V → W → V) : V × W → V × W := fun z => (f z.1 z.2, z.2)

end Acados.ControlHorizon
