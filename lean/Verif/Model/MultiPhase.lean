import Verif.Spec.MultiPhase
import Mathlib.Data.List.Dedup
/-!
# Multi-phase problems

`interfaces/acados_template/acados_template/acados_multiphase_ocp.py` lines 136-155, 201-215, 424-510 and the template
`c_templates_tera/acados_multi_solver.in.c` (line numbers with `T`).

Simplifications: types of costs and constraints are codes; cost, constraint and model objects are identified by numbers; the checks
that `AcadosOcp.make_consistent` makes for each phase, apart from that of `nx_next`, are an input; the numerical data of cost and
constraints, external functions and options are not modelled, the loops of the template over them are those of the plan.
-/
namespace Acados.MultiPhase
variable {K : Type}

/-! ### Python: `make_consistent` -/

/-- a phase as the user sets it: name of the model, identities of the objects, `p_global` -/
structure PhaseIn (K : Type) where
  name : List Char
  model : Nat
  cost : Nat
  constr : Nat
  pGlobal : Option Nat
  data : Phase K

/-- lines 430-437: names are made unique -/
def uniqueNames (names : List (List Char)) : List (List Char) :=
  if names.dedup.length ≠ names.length then names.zipIdx.map fun nk => nk.1 ++ '_' :: Nat.toDigits 10 nk.2 else names

/-- `AcadosMultiphaseOptions.make_consistent` for one option, lines 136-148; `none`: an exception -/
def phaseOption {α : Type} (given : Option (List α)) (shared : α) (n : Nat) : Option (List α) :=
  let l := match given with
    | some l => l
    | none => List.replicate n shared
  if l.length ≠ n then none else some l

/-- lines 442-447 -/
def distinct (l : List Nat) : Bool := l.dedup.length == l.length

/-- lines 449-455 -/
def pGlobalOk (l : List (Option Nat)) : Bool := l.all fun g => decide (g = l.headD none)

/-- `np.cumsum([a] + l)` -/
def cumsum (a : Int) : List Int → List Int
  | [] => [a]
  | n :: l => a :: cumsum (a + n) l

/-- `phase_idx`, line 458 -/
def phaseIdx (Nl : List Int) : List Int := cumsum 0 Nl

/-- `start_idx`, line 460 -/
def startIdx (Nl : List Int) : List Int := (phaseIdx Nl).dropLast

/-- `end_idx`, line 461 -/
def endIdx (Nl : List Int) : List Int := (phaseIdx Nl).tail

/-- `cost_start_idx`, lines 463-464 -/
def costStartIdx (Nl : List Int) : List Int := match phaseIdx Nl with
  | a :: l => (a + 1) :: l
  | [] => []

/-- `AcadosOcp.make_consistent` with `mocp_info`, `acados_ocp.py` lines 1105-1109 -/
def nxNextOk (n : Int) (ph : Phase K) : Bool := !(decide (ph.dims .path .nx ≠ ph.nxNext) && decide (n > 1))

/-- lines 503-510, for the phases `i-1` and `i` -/
def transitionOk (n : Int) (a b : Phase K) : Bool :=
  if b.dims .path .nx ≠ a.dims .path .nx then
    decide (b.dims .path .nx = a.nxNext) && (decide (n = 1) && decide (a.integ = .discrete))
  else true

def transitionsOk : List Int → List (Phase K) → Bool
  | n :: Nl, a :: b :: phs => transitionOk n a b && transitionsOk Nl (b :: phs)
  | _, _ => true

/-- `make_consistent`, lines 424-510: does it return?  `integ`: the phase-wise integrators, if given, `shared` the one of the solver
options, `rest` the outcome of the other checks of the phases.  The integrator of `Phase` is the one of the phase after line 487. -/
def accepted (Nl : List Int) (phs : List (PhaseIn K)) (integ : Option (List Integ)) (shared : Integ) (rest : Bool) : Bool :=
  decide (0 ≤ Nl.sum)
  && (match phaseOption integ shared Nl.length with
    | some l => decide (l = phs.map (·.data.integ))
    | none => false)
  && distinct (phs.map (·.model)) && distinct (phs.map (·.cost)) && distinct (phs.map (·.constr))
  && pGlobalOk (phs.map (·.pGlobal))
  && ((Nl.zip (phs.map (·.data))).all fun np => nxNextOk np.1 np.2) && rest
  && transitionsOk Nl (phs.map (·.data))

/-! ### the generated code -/

/-- `for (int i = a; i < b; i++)` -/
def irange (a b : Int) : List Int := (List.range (b - a).toNat).map fun k : Nat => a + (k : Int)

/-- `{% for jj in range(end=n_phases) %} for (i = start[jj]; i < end[jj]; i++) A[i] = ...` as list of the writes -/
def loops {α : Type} (starts ends : List Int) (phs : List (Phase K)) (val : Phase K → α) : List (Int × α) :=
  ((starts.zip ends).zip phs).flatMap fun abp => (irange abp.1.1 abp.1.2).map fun i => (i, val abp.2)

/-- writes to `nlp_cost`, T206-T212, T228; also the loops over the numerical data of the cost, T1347-T1456, and those over
constraint types -/
def planWrites {α : Type} (Nl : List Int) (phs : List (Phase K)) (v0 : Phase K → α) (v : Phase K → α) (ve : Phase K → α) : List (Int × α) :=
  (phs.head?.toList.map fun ph => ((0 : Int), v0 ph)) ++ loops (costStartIdx Nl) (endIdx Nl) phs v
    ++ (phs.getLast?.toList.map fun ph => (Nl.sum, ve ph))

/-- writes to `nlp_dynamics`, T215-T225 -/
def dynWrites (Nl : List Int) (phs : List (Phase K)) : List (Int × Integ) := loops (startIdx Nl) (endIdx Nl) phs (·.integ)

/-- T270-T296: dimensions of a stage of a phase -/
def pathDim (ph : Phase K) : Dim → Nat
  | .nbxe => 0
  | d => ph.dims .path d

/-- T298-T322 -/
def initDim (ph : Phase K) : Dim → Nat
  | .nx => ph.dims .path .nx | .nu => ph.dims .path .nu | .nz => ph.dims .path .nz | .ns => ph.dims .init .ns
  | .np => ph.dims .path .np | .ny => ph.dims .init .ny | .nbu => ph.dims .path .nbu | .nbx => ph.dims .init .nbx
  | .nbxe => ph.dims .init .nbxe | .ng => ph.dims .path .ng | .nh => ph.dims .init .nh | .nphi => ph.dims .init .nphi
  | .nr => ph.dims .init .nr | .nsbu => ph.dims .path .nsbu | .nsbx => 0 | .nsg => ph.dims .path .nsg
  | .nsh => ph.dims .init .nsh | .nsphi => ph.dims .init .nsphi

/-- T324-T348 -/
def termDim (ph : Phase K) : Dim → Nat
  | .nx => ph.dims .path .nx | .nu => 0 | .nz => ph.dims .path .nz | .ns => ph.dims .term .ns
  | .np => ph.dims .path .np | .ny => ph.dims .term .ny | .nbu => 0 | .nbx => ph.dims .term .nbx
  | .nbxe => 0 | .ng => ph.dims .term .ng | .nh => ph.dims .term .nh | .nphi => ph.dims .term .nphi
  | .nr => ph.dims .term .nr | .nsbu => 0 | .nsbx => ph.dims .term .nsbx | .nsg => ph.dims .term .nsg
  | .nsh => ph.dims .term .nsh | .nsphi => ph.dims .term .nsphi

/-- writes to an array of dimensions, T269-T348 -/
def dimWrites (Nl : List Int) (phs : List (Phase K)) (d : Dim) : List (Int × Nat) :=
  loops (startIdx Nl) (endIdx Nl) phs (fun ph => pathDim ph d)
    ++ (phs.head?.toList.map fun ph => ((0 : Int), initDim ph d)) ++ (phs.getLast?.toList.map fun ph => (Nl.sum, termDim ph d))

/-- all writes hit an array of length `n` -/
def inBounds {α : Type} (n : Int) (ws : List (Int × α)) : Bool := ws.all fun w => decide (0 ≤ w.1) && decide (w.1 < n)

/-- the entry of the array after the writes; `none`: never written -/
def entry {α : Type} (ws : List (Int × α)) (i : Int) : Option α := ((ws.filter fun w => decide (w.1 = i)).getLast?).map (·.2)

/-- `dims->np[i]` -/
def npAt (Nl : List Int) (phs : List (Phase K)) (i : Int) : Nat := (entry (dimWrites Nl phs .np) i).getD 0

/-! ### parameters -/

/-- outcome: returns, ends the process, undefined behaviour -/
inductive Res (α : Type) | ok (a : α) | exit | ub

/-- `acados_update_params`, T2986-T3006, and `ocp_nlp_in_set`, `ocp_nlp_interface.c` lines 444-451; `p` is the memory behind the
pointer -/
def updateParams (Nl : List Int) (phs : List (Phase K)) (st : Int) (p : List K) (np : Nat) (P : Int → List K) : Res (Int → List K) :=
  if (((startIdx Nl).zip (endIdx Nl)).zip phs).any fun abp =>
      decide (st ≥ abp.1.1) && decide (st < abp.1.2) && decide (abp.2.dims .path .np ≠ np) then .exit
  else if st < 0 ∨ st > Nl.sum then .ub
  else if p.length < npAt Nl phs st then .ub
  else .ok fun i => if i = st then p.take (npAt Nl phs st) else P i

/-- more than a tenth of the values are not zero, T114 and T134 -/
def dense [Zero K] [DecidableEq K] (p : List K) : Bool := decide (10 * (p.filter fun v => decide (v ≠ 0)).length > p.length)

/-- writes to the buffer `p`, T884-T892 -/
def fillBuf [Zero K] [DecidableEq K] (ph : Phase K) (buf : List K) : List K :=
  if dense ph.p then ph.p ++ buf.drop ph.p.length
  else buf.zipIdx.map fun bk => match ph.p[bk.2]? with
    | some v => if v ≠ 0 then v else bk.1
    | none => bk.1

/-- the loop over the stages of a phase, T894-T896 -/
def setStages (Nl : List Int) (phs : List (Phase K)) (buf : List K) (np : Nat) : List Int → (Int → List K) → Res (Int → List K)
  | [], P => .ok P
  | i :: l, P => match updateParams Nl phs i buf np P with
    | .ok P => setStages Nl phs buf np l P
    | .exit => .exit
    | .ub => .ub

/-- the loop over the phases of `acados_create_set_default_parameters`, T880-T898: one buffer for all phases -/
def setPhases [Zero K] [DecidableEq K] (Nl : List Int) (phs : List (Phase K)) :
    List ((Int × Int) × Phase K) → List K → (Int → List K) → Res (Int → List K)
  | [], _, P => .ok P
  | ((a, b), ph) :: l, buf, P =>
    if ph.dims .path .np > 0 then
      let buf := fillBuf ph buf
      match setStages Nl phs buf (ph.dims .path .np) (irange a b) P with
      | .ok P => setPhases Nl phs l buf P
      | .exit => .exit
      | .ub => .ub
    else setPhases Nl phs l buf P

/-- `np_max`, T61-T65 -/
def npMax (phs : List (Phase K)) : Nat := (phs.map fun ph => ph.dims .path .np).foldl max 0

/-- the parameters after creation, T877-T898; `ocp_nlp_in_assign` sets them to zero, `ocp_nlp_common.c` lines 911-917 -/
def defaultParams [Zero K] [DecidableEq K] (Nl : List Int) (phs : List (Phase K)) : Res (Int → List K) :=
  setPhases Nl phs (((startIdx Nl).zip (endIdx Nl)).zip phs) (List.replicate (npMax phs) 0)
    (fun i => List.replicate (npAt Nl phs i) 0)

end Acados.MultiPhase
