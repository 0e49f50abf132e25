import Verif.Model.SqpLoop
/-!
# Specification vocabulary for the SQP loop

Nothing here refers to the loop of the model; only to the event log, the oracles and the options.
-/
namespace Acados.Sqp
variable {K X : Type*} [Field K] [LinearOrder K] [IsStrictOrderedRing K]

/-- the iterate after `k` successful globalization steps -/
def traj (e : Env K X) (x0 : X) : Nat → X
  | 0 => x0
  | k + 1 => e.globX k (traj e x0 k)

/-- some residual norm is NaN -/
def Res.HasNan (r : Res) : Prop := r.stat = .nan ∨ r.eq = .nan ∨ r.ineq = .nan ∨ r.comp = .nan

/-- all four residual norms are below their tolerance -/
def Res.Below (r : Res) (o : Opts K) : Prop :=
  r.stat < o.tolStat ∧ r.eq < o.tolEq ∧ r.ineq < o.tolIneq ∧ r.comp < o.tolComp

/-- no termination criterion holds at iteration `j` of the trajectory -/
def NoStop (o : Opts K) (e : Env K X) (x0 : X) (j : Nat) : Prop :=
  ¬ (e.res (traj e x0 j)).HasNan ∧ ¬ (e.res (traj e x0 j)).Below o ∧
  (o.tolMinStep > (0 : Dbl) → 0 < j →
    ¬ e.stepNorm (j - 1) (traj e x0 (j - 1)) < o.tolMinStep) ∧
  (o.needsObj = true → ¬ e.cost (traj e x0 j) ≤ o.tolUnbounded)

/-- a QP status that does not stop the solver -/
def QpOk (s : Status) : Prop := s = .success ∨ s = .maxIter

def Ev.qp? : Ev K X → Option Int
  | .qp w => some w
  | _ => none
def Ev.clock? : Ev K X → Option K
  | .clock t => some t
  | _ => none
def Ev.store? : Ev K X → Option (Nat × X)
  | .store i x => some (i, x)
  | _ => none
def Ev.glob? : Ev K X → Option Status
  | .glob s => some s
  | _ => none

/-- warm-start levels of the QP solves, in order -/
def qps (l : List (Ev K X)) : List Int := l.filterMap Ev.qp?
/-- clock readings, in order -/
def clocks (l : List (Ev K X)) : List K := l.filterMap Ev.clock?
/-- stored iterates, in order -/
def stores (l : List (Ev K X)) : List (Nat × X) := l.filterMap Ev.store?
/-- globalization results, in order -/
def globs (l : List (Ev K X)) : List Status := l.filterMap Ev.glob?

/-- the run ended because globalization failed with status `st` -/
def GlobFailed (s : St K X) (st : Status) : Prop :=
  st ≠ .success ∧ (globs s.log).getLast? = some st

/-- every array access of the call is in bounds, for a statistics table of `statM × statN`,
`nIterates` stored iterates and step-norm logs of length `nNorms` -/
def EvInBounds (statM statN nIterates nNorms : Nat) : Ev K X → Prop
  | .stat r c => r < statM ∧ c < statN
  | .store i _ => i < nIterates
  | .logPrimal i => i < nNorms
  | .logDual i => i < nNorms
  | _ => True

/-- durations of iterations `1..n`, from the clock readings -/
def durations (toc : Nat → K) (n : Nat) : List K :=
  (List.range n).map fun k => toc (k + 1) - toc k

/-- predicted duration of the next iteration from the durations measured in this call; `m0` is the
largest duration of earlier calls -/
def predicted (h : Heur) (m0 : K) (ds : List K) : K :=
  match h with
  | .last => ds.getLast?.getD 0
  | .maxCall => ds.foldl max 0
  | .maxOverall => ds.foldl max m0
  | .average => ds.foldl (fun a d => (a + d) / 2) 0
  | .zero => 0
  | .other => 0

end Acados.Sqp
