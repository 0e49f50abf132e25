import Verif.Spec.Regularity
import Verif.Model.CasadiNlp

/-!
Specification for C104: the hard constraints of an optimal control problem at a point, by stage, and
on which variables they may depend.  Names of variables (`Sym`) and of constraints (`Con`) are those
of C97.
-/

namespace Acados.Regularity

open CasadiNlp (Sym Ocp)

section
variable {K : Type*} [Field K]

/-- Stage of a variable. -/
def symStage : Sym → ℕ
  | .x i _ => i
  | .u i _ => i
  | .sl i _ => i
  | .su i _ => i

/-- Stage of a constraint. -/
def conStage : CasadiNlp.Con → ℕ
  | .dyn i _ => i
  | .lin i _ => i
  | .h i _ => i
  | .hl i _ _ => i
  | .hu i _ _ => i
  | .phi i _ => i

/-- A bound on a variable as a constraint: its gradient is a unit vector. -/
def varRow (w : List Sym) (v μ : Sym → K) (s : Sym) (lo up : K) : Con K :=
  ⟨some lo, some up, v s, μ s, fun q => if w[q]? = some s then 1 else 0⟩

/-- A constraint with given value, multiplier and partial derivatives. -/
def conRow (w : List Sym) (val μg : CasadiNlp.Con → K) (D : CasadiNlp.Con → Sym → K)
    (c : CasadiNlp.Con) (lo up : K) : Con K :=
  ⟨some lo, some up, val c, μg c, fun q => ((w[q]?).map (D c)).getD 0⟩

/-- The hard constraints of stage `k`: bounds on states, bounds on controls, dynamics, linear
constraints, nonlinear constraints that are not soft, convex-over-nonlinear constraints. -/
def ocpRows (o : Ocp K) (w : List Sym) (v μ : Sym → K) (val μg : CasadiNlp.Con → K)
    (D : CasadiNlp.Con → Sym → K) (k : ℕ) : List (Con K) :=
  let d := o.at k
  (List.range d.nbx).map (fun j => varRow w v μ (.x k (d.idxbx j)) (d.lbx j) (d.ubx j)) ++
  (if k < o.N then
    (List.range o.nbu).map (fun j => varRow w v μ (.u k (o.idxbu j)) (o.lbu j) (o.ubu j)) ++
    (List.range o.nx).map (fun j => conRow w val μg D (.dyn k j) 0 0)
  else []) ++
  (if k < o.N then (List.range o.ng).map (fun r => conRow w val μg D (.lin k r) (o.lg r) (o.ug r))
    else (List.range o.nge).map (fun r => conRow w val μg D (.lin k r) (o.lge r) (o.uge r))) ++
  ((List.range d.nh).filter (fun r => !(List.range d.nsh).any (fun s => d.idxsh s == r))).map
    (fun r => conRow w val μg D (.h k r) (d.lh r) (d.uh r)) ++
  (List.range d.nphi).map (fun r => conRow w val μg D (.phi k r) (d.lphi r) (d.uphi r))

/-- Constraints of a stage do not depend on variables of earlier stages. -/
def Forward (D : CasadiNlp.Con → Sym → K) : Prop :=
  ∀ c s, symStage s < conStage c → D c s = 0

end

end Acados.Regularity
