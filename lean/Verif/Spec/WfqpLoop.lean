import Verif.Model.WfqpLoop
/-!
# Specification vocabulary for the loop of SQP_WITH_FEASIBLE_QP

Everything is a function of the event log of a call, the options and the oracles.
-/
namespace Acados.WfqpLoop
variable {K X : Type*} [Field K] [LinearOrder K] [IsStrictOrderedRing K]

/-- `P` holds for every event of the log together with what happened before it -/
def Everywhere (P : List (Ev X) → Ev X → Prop) (l : List (Ev X)) : Prop :=
  ∀ pre ev post, l = pre ++ ev :: post → P pre ev

/-- search direction mode after the events `l`: the configured one until the first switch -/
def modeAfter (m0 : Mode) (l : List (Ev X)) : Mode :=
  l.foldl (fun m ev => match ev with | .switch m' => m' | _ => m) m0

/-- number of relaxed solutions with zero slacks since the last switch to nominal mode (or since the
start) -/
def zeroSince (l : List (Ev X)) : Int :=
  l.foldl (fun c ev => match ev with | .switch .nominal => 0 | .slack true => c + 1 | _ => c) 0

/-- the QP solved last and its status -/
def lastQp (l : List (Ev X)) : Option (Kind × Status) :=
  l.foldl (fun q ev => match ev with | .qp k st _ => some (k, st) | _ => q) none

/-- how often the Hessian of QP `t` was regularised since the current search direction computation
began -/
def regsSince (t : Target) (l : List (Ev X)) : Nat :=
  l.foldl (fun c ev => match ev with
    | .direction _ => 0 | .reg t' => if t' = t then c + 1 else c | _ => c) 0

/-- number of search directions begun -/
def dirs (l : List (Ev X)) : Nat :=
  l.foldl (fun c ev => match ev with | .direction _ => c + 1 | _ => c) 0

/-- the iterate after `k` successful globalization steps -/
def traj (e : Env K X) (x0 : X) : Nat → X
  | 0 => x0
  | k + 1 => e.globX k (traj e x0 k)

/-- the run ended with a failed globalization -/
def GlobFailed (s : St K X) : Prop :=
  s.status ≠ .success ∧ s.log.getLast? = some (.glob s.status)

/-- array accesses of an event, for a table of `statM` rows and 13 columns, `nIt` stored iterates and
step norm logs of length `nNorm` -/
def InBounds (statM nIt nNorm : Nat) : Ev X → Prop
  | .stat r c => r < statM ∧ c < statN
  | .store i _ => i < nIt
  | .logPrimal i => i < nNorm
  | .logDual i => i < nNorm
  | _ => True

/-- some QP of iteration `k` was not solved -/
def QpFailed (e : Env K X) (x0 : X) (k : Nat) : Prop :=
  e.qp .feas k (traj e x0 k) ≠ .success ∨ e.qp .bo k (traj e x0 k) ≠ .success

/-- number of QPs of kind `k` that were solved -/
def count (k : Kind) (l : List (Ev X)) : Nat :=
  l.countP fun ev => match ev with | .qp k' _ _ => k' = k | _ => false

end Acados.WfqpLoop
