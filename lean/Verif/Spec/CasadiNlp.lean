import Mathlib.Algebra.Field.Defs
import Mathlib.Algebra.Order.Ring.Defs
import Mathlib.Algebra.BigOperators.Group.Finset.Basic

/-!
Specification for C97: the optimal control problem a user describes, its feasible points, its cost
and the order of its multipliers.  Written without the NLP formulation.

Simplifications: `double` is an ordered field.  Vectors are functions of the index together with a
dimension.  Model functions (dynamics, `h`, `phi`, cost) get the number of the stage as their first
argument, which stands for the parameters, the reference and the time step of that stage.
-/

namespace Acados.CasadiNlp

/-- What a user gives for one kind of stage: initial, path or terminal. -/
structure Stage (K : Type*) where
  /-- bounds on states -/
  nbx : ℕ
  idxbx : ℕ → ℕ
  lbx : ℕ → K
  ubx : ℕ → K
  /-- nonlinear constraints -/
  nh : ℕ
  h : ℕ → (ℕ → K) → (ℕ → K) → ℕ → K
  lh : ℕ → K
  uh : ℕ → K
  /-- which of them are soft, lower bounds of the slacks -/
  nsh : ℕ
  idxsh : ℕ → ℕ
  lsh : ℕ → K
  ush : ℕ → K
  /-- convex-over-nonlinear constraints -/
  nphi : ℕ
  phi : ℕ → (ℕ → K) → (ℕ → K) → ℕ → K
  lphi : ℕ → K
  uphi : ℕ → K
  nsphi : ℕ
  idxsphi : ℕ → ℕ
  lsphi : ℕ → K
  usphi : ℕ → K
  /-- cost and penalties on slacks -/
  cost : ℕ → (ℕ → K) → (ℕ → K) → K
  zl : ℕ → K
  zu : ℕ → K
  Zl : ℕ → K
  Zu : ℕ → K

/-- The optimal control problem. -/
structure Ocp (K : Type*) where
  N : ℕ
  nx : ℕ
  nu : ℕ
  nz : ℕ
  /-- is the integrator DISCRETE or ERK -/
  explicitDyn : Bool
  /-- numbers of integrator steps and stages of every interval, ignored by discrete dynamics -/
  steps : ℕ → ℕ × ℕ
  /-- `x_{i+1} = f (steps i) i x_i u_i` -/
  f : ℕ × ℕ → ℕ → (ℕ → K) → (ℕ → K) → ℕ → K
  nbu : ℕ
  idxbu : ℕ → ℕ
  lbu : ℕ → K
  ubu : ℕ → K
  /-- linear constraints of the stages `0, …, N-1` -/
  ng : ℕ
  C : ℕ → ℕ → K
  D : ℕ → ℕ → K
  lg : ℕ → K
  ug : ℕ → K
  /-- linear constraints of the terminal stage -/
  nge : ℕ
  Ce : ℕ → ℕ → K
  lge : ℕ → K
  uge : ℕ → K
  /-- numbers of soft bounds and soft linear constraints -/
  nsbx : ℕ
  nsbxe : ℕ
  nsbu : ℕ
  nsg : ℕ
  nsge : ℕ
  scaling : ℕ → K
  init : Stage K
  path : Stage K
  term : Stage K

/-- A trajectory: states, controls, lower and upper slacks of every stage. -/
structure Traj (K : Type*) where
  x : ℕ → ℕ → K
  u : ℕ → ℕ → K
  sl : ℕ → ℕ → K
  su : ℕ → ℕ → K

section
variable {K : Type*}

/-- The data that applies at stage `i ≤ N` of a problem with `N > 0`. -/
def Ocp.at (o : Ocp K) (i : ℕ) : Stage K :=
  if i = 0 then o.init else if i < o.N then o.path else o.term

/-- The number of soft constraints of a stage. -/
def Stage.soft (d : Stage K) : ℕ := d.nsh + d.nsphi

/-- Index lists refer to existing entries and name no entry twice. -/
structure Proper (o : Ocp K) : Prop where
  bx : ∀ i, i ≤ o.N → ∀ k, k < (o.at i).nbx → (o.at i).idxbx k < o.nx
  bxInj : ∀ i, i ≤ o.N → ∀ k, k < (o.at i).nbx → ∀ k', k' < (o.at i).nbx →
    (o.at i).idxbx k = (o.at i).idxbx k' → k = k'
  bu : ∀ k, k < o.nbu → o.idxbu k < o.nu
  buInj : ∀ k, k < o.nbu → ∀ k', k' < o.nbu → o.idxbu k = o.idxbu k' → k = k'
  sh : ∀ i, i ≤ o.N → ∀ k, k < (o.at i).nsh → (o.at i).idxsh k < (o.at i).nh
  shInj : ∀ i, i ≤ o.N → ∀ k, k < (o.at i).nsh → ∀ k', k' < (o.at i).nsh →
    (o.at i).idxsh k = (o.at i).idxsh k' → k = k'

variable [Field K] [LinearOrder K] [IsStrictOrderedRing K]

/-- The control that model functions of stage `i` see: there is none at the terminal stage. -/
def ctrl (o : Ocp K) (t : Traj K) (i : ℕ) : ℕ → K :=
  if i < o.N then t.u i else fun _ => 0

/-- The `k`-th row of the linear constraints of stage `i`. -/
def linRow (o : Ocp K) (t : Traj K) (i k : ℕ) : K :=
  if i < o.N then
    ∑ j ∈ Finset.range o.nx, o.C k j * t.x i j + ∑ j ∈ Finset.range o.nu, o.D k j * t.u i j
  else ∑ j ∈ Finset.range o.nx, o.Ce k j * t.x i j

/-- A family of constraints `lo ≤ c ≤ up`, some of them relaxed by slacks:
`lo ≤ c + sl`, `c - su ≤ up`. -/
def Soft (n ns : ℕ) (idxs : ℕ → ℕ) (lo up c sl su : ℕ → K) : Prop :=
  (∀ r, r < n → (∀ k, k < ns → idxs k ≠ r) → lo r ≤ c r ∧ c r ≤ up r) ∧
  (∀ k, k < ns → lo (idxs k) ≤ c (idxs k) + sl k ∧ c (idxs k) - su k ≤ up (idxs k))

/-- The trajectory satisfies all constraints of stage `i`. -/
structure StageFeasible (o : Ocp K) (t : Traj K) (i : ℕ) : Prop where
  bx : ∀ k, k < (o.at i).nbx →
    (o.at i).lbx k ≤ t.x i ((o.at i).idxbx k) ∧ t.x i ((o.at i).idxbx k) ≤ (o.at i).ubx k
  bu : i < o.N → ∀ k, k < o.nbu →
    o.lbu k ≤ t.u i (o.idxbu k) ∧ t.u i (o.idxbu k) ≤ o.ubu k
  dyn : i < o.N → ∀ j, j < o.nx → t.x (i + 1) j = o.f (o.steps i) i (t.x i) (t.u i) j
  lin : ∀ k, k < (if i < o.N then o.ng else o.nge) →
    (if i < o.N then o.lg k else o.lge k) ≤ linRow o t i k ∧
    linRow o t i k ≤ (if i < o.N then o.ug k else o.uge k)
  h : Soft (o.at i).nh (o.at i).nsh (o.at i).idxsh (o.at i).lh (o.at i).uh
    ((o.at i).h i (t.x i) (ctrl o t i)) (t.sl i) (t.su i)
  phi : Soft (o.at i).nphi (o.at i).nsphi (o.at i).idxsphi (o.at i).lphi (o.at i).uphi
    ((o.at i).phi i (t.x i) (ctrl o t i))
    (fun k => t.sl i ((o.at i).nsh + k)) (fun k => t.su i ((o.at i).nsh + k))
  sh : ∀ k, k < (o.at i).nsh → (o.at i).lsh k ≤ t.sl i k ∧ (o.at i).ush k ≤ t.su i k
  sphi : ∀ k, k < (o.at i).nsphi →
    (o.at i).lsphi k ≤ t.sl i ((o.at i).nsh + k) ∧ (o.at i).usphi k ≤ t.su i ((o.at i).nsh + k)

/-- The trajectory is feasible for the optimal control problem. -/
def Feasible (o : Ocp K) (t : Traj K) : Prop := ∀ i, i ≤ o.N → StageFeasible o t i

/-- The objective: every stage's cost and penalties on its slacks, scaled. -/
def objective (o : Ocp K) (t : Traj K) : K :=
  ∑ i ∈ Finset.range (o.N + 1), o.scaling i *
    ((o.at i).cost i (t.x i) (ctrl o t i) +
      ∑ k ∈ Finset.range (o.at i).soft,
        ((o.at i).Zl k * t.sl i k ^ 2 / 2 + (o.at i).zl k * t.sl i k +
          ((o.at i).Zu k * t.su i k ^ 2 / 2 + (o.at i).zu k * t.su i k)))

/-- A number of an optional lower and upper bound. -/
def Within (lo up : Option K) (a : K) : Prop := (∀ b, lo = some b → b ≤ a) ∧ (∀ b, up = some b → a ≤ b)

/-- A list of quantities respects lists of bounds of the same lengths. -/
def AllWithin (vals : List K) (lo up : List (Option K)) : Prop :=
  lo.length = vals.length ∧ up.length = vals.length ∧
  ∀ (p : ℕ) (a : K) (l u : Option K), vals[p]? = some a → lo[p]? = some l → up[p]? = some u → Within l u a

end

section
variable {K : Type*}

/-- Multipliers of the constraints of one stage as a user of acados knows them: nonnegative numbers
for lower and upper bounds. -/
structure Mult (K : Type*) where
  lbu : List K
  lbx : List K
  lg : List K
  lh : List K
  lphi : List K
  ubu : List K
  ubx : List K
  ug : List K
  uh : List K
  uphi : List K
  ls : List K
  us : List K

/-- The documented order:
`[lbu lbx lg lh lphi ubu ubx ug uh uphi; lsh usl …]`. -/
def Mult.flat (m : Mult K) : List K :=
  m.lbu ++ m.lbx ++ (m.lg ++ m.lh ++ m.lphi) ++ (m.ubu ++ m.ubx ++ (m.ug ++ m.uh ++ m.uphi)) ++
    m.ls ++ m.us

end

end Acados.CasadiNlp
