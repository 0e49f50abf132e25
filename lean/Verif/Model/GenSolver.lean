import Verif.Spec.GenSolver
/-!
# The generated solver: creation, time steps, reset

`interfaces/acados_template/acados_template/c_templates_tera/acados_solver.in.c`, and the calling code in
`acados_ocp_solver.py`.  All line numbers without a file name are lines of the template.

The setters of the cost and constraint modules store an array in a field of a stage (what the modules do with it is
modelled in `Bgh`, `Cost`).  External functions, options, the solver memory and the precomputation are not part of the
state here.
-/
namespace Acados.GenSolver
variable {K : Type}

/-! ### Buffers -/

/-- `calloc(parts*n)` followed by "change only the non-zero elements", e.g. lines 1113-1119, 1334-1366: part `q` of the
buffer is filled from `vs[q]`.  (The template interleaves the assignments of the parts in some places; they have
different targets.) -/
def fillParts [Zero K] [DecidableEq K] (n : Nat) (vs : List (Nat → K)) : Nat → K :=
  vs.zipIdx.foldl (fun (b : Nat → K) (vq : (Nat → K) × Nat) => (List.range n).foldl (fun (b : Nat → K) i =>
    if vq.1 i ≠ 0 then Function.update b (vq.2 * n + i) (vq.1 i) else b) b) (fun _ => 0)

/-- the array of length `n` that starts at part `q` of the buffer -/
def part (n q : Nat) (b : Nat → K) : Val K := .nums ((List.range n).map (fun i => b (q * n + i)))

/-- `calloc(r*c)` and the assignments `M[j + r*k] = …` of the non-zero elements, e.g. lines 1124-1132 -/
def fillMat [Zero K] [DecidableEq K] (r c : Nat) (M : Nat → Nat → K) : Nat → K :=
  (List.range r).foldl (fun (b : Nat → K) j => (List.range c).foldl (fun (b : Nat → K) k =>
    if M j k ≠ 0 then Function.update b (j + r * k) (M j k) else b) b) (fun _ => 0)

/-- the whole buffer of a matrix -/
def whole (n : Nat) (b : Nat → K) : Val K := .nums ((List.range n).map b)

/-- `malloc(n)` followed by `m` assignments `b[j] = …`; `none`: a write behind the end of the buffer.  An entry `none`
has not been written. -/
def mallocFill {α : Type} (n m : Nat) (v : Nat → α) : Option (List (Option α)) :=
  (List.range m).foldl (fun (b : Option (List (Option α))) j =>
    match b with
    | none => none
    | some b => if j < n then some (b.set j (some (v j))) else none) (some (List.replicate n none))

/-! ### State -/

/-- the problem data of a solver (`nlp_in`) -/
structure In (K : Type) where
  ts : Nat → K
  scaling : Nat → K
  fld : Nat → Fld → Option (Val K)
  p : Nat → Nat → K
  globalData : List K

/-- the iterate (`nlp_out`): states, inputs, and the rest (slacks, algebraic variables, multipliers) -/
structure Iter (K : Type) where
  x : Nat → Nat → K
  u : Nat → Nat → K
  rest : Nat → Nat → K

/-- the capsule: `N` is `nlp_solver_plan->N` -/
structure Capsule (K : Type) where
  N : Nat
  inp : In K
  out : Iter K

/-- outcome of a call: it returns 0, it returns 1, it ends the process, it has undefined behaviour -/
inductive Res (α : Type) | ok (a : α) | refused | exit | ub

def Res.bind {α β : Type} : Res α → (α → Res β) → Res β
  | .ok a, f => f a
  | .refused, _ => .refused
  | .exit, _ => .exit
  | .ub, _ => .ub

/-! ### Time steps and cost scaling -/

/-- the loop of `acados_update_time_steps`, lines 202-206 -/
def setSteps (N : Nat) (ts : Nat → K) (s : In K) : In K :=
  (List.range N).foldl (fun (s : In K) i =>
    { s with ts := Function.update s.ts i (ts i), scaling := Function.update s.scaling i (ts i) }) s

/-- `acados_update_time_steps`, lines 184-209; `capN` is the number of stages of the capsule -/
def updateSteps (d : Desc K) (capN N : Nat) (ts : Nat → K) (s : In K) : Res (In K) :=
  if d.N = 0 then .exit
  else if N ≠ capN then .refused
  else .ok (setSteps N ts s)

/-- the loop over the entries of an array of doubles, lines 1114-1117 and 1128-1131; reading an entry that was never
written is undefined -/
def readLoop (n : Nat) (b : List (Option K)) (put : Nat → K → In K → In K) (s : In K) : Res (In K) :=
  (List.range n).foldl (fun (r : Res (In K)) i => r.bind (fun s =>
    match b.getD i none with
    | some v => .ok (put i v s)
    | none => .ub)) (.ok s)

def putTs (i : Nat) (v : K) (s : In K) : In K := { s with ts := Function.update s.ts i v }
def putScaling (i : Nat) (v : K) (s : In K) : In K := { s with scaling := Function.update s.scaling i v }

/-- the time steps of the description, lines 1098-1121.  `all_equal` is decided at code generation. -/
def descSteps [DecidableEq K] (d : Desc K) (N : Nat) (s : In K) : Res (In K) :=
  if d.N = 0 then .ok s
  else if (List.range d.N).all (fun j => decide (d.timeSteps j = d.timeSteps 0)) then
    .ok ((List.range N).foldl (fun (s : In K) i => putTs i (d.timeSteps 0) s) s)
  else match mallocFill N d.N d.timeSteps with
    | none => .ub
    | some b => readLoop N b putTs s

/-- the cost scaling of the description, lines 1123-1133 -/
def descScaling (d : Desc K) (N : Nat) (s : In K) : Res (In K) :=
  match mallocFill (N + 1) (d.N + 1) d.costScaling with
  | none => .ub
  | some b => readLoop (N + 1) b putScaling s

/-- lines 1092-1134 -/
def steps [DecidableEq K] (d : Desc K) (capN N : Nat) (newTs : Option (Nat → K)) (s : In K) : Res (In K) :=
  match newTs with
  | some ts =>
    -- the return value of the call is ignored (line 1095)
    match updateSteps d capN N ts s with
    | .refused => .ok s
    | r => r
  | none => (descSteps d N s).bind (descScaling d N)

/-! ### The numerical values of the cost and the constraints -/

/-- a part of the template: a condition, the stages of the `for` loop, the setter calls in the loop -/
structure Block (K : Type) where
  cond : Bool
  stages : List Nat
  sets : List (Fld × Val K)

section blocks
variable [Zero K] [DecidableEq K]

/-- an array of the description, filled and handed over -/
def vec1 (d : Desc K) (k : Kind) (f : Fld) (n : Nat) : Val K := part n 0 (fillParts n [d.vec k f])

/-- lower and upper values in one buffer -/
def lower (d : Desc K) (k : Kind) (fl fu : Fld) (n : Nat) : Val K := part n 0 (fillParts n [d.vec k fl, d.vec k fu])
def upper (d : Desc K) (k : Kind) (fl fu : Fld) (n : Nat) : Val K := part n 1 (fillParts n [d.vec k fl, d.vec k fu])

/-- the four slack penalties in one buffer, lines 1332-1372, 1376-1415, 1419-1457 -/
def slack (d : Desc K) (k : Kind) (q n : Nat) : Val K :=
  part n q (fillParts n [d.vec k .Zl, d.vec k .Zu, d.vec k .zl, d.vec k .zu])

def mat1 (d : Desc K) (k : Kind) (f : Fld) (r c : Nat) : Val K := whole (r * c) (fillMat r c (d.mat k f))

/-- index arrays: `malloc(n)` and `n` assignments -/
def idx1 (d : Desc K) (k : Kind) (f : Fld) (n : Nat) : Val K := .idx ((List.range n).map (d.idx k f))

/-- `cost_type` is `NONLINEAR_LS` or `LINEAR_LS` -/
def isLs (d : Desc K) (k : Kind) : Bool :=
  decide (d.costType k = .nonlinearLs) || decide (d.costType k = .linearLs)

/-- `cost_type` is `LINEAR_LS` -/
def isLin (d : Desc K) (k : Kind) : Bool := decide (d.costType k = .linearLs)

/-- stages of `for (int i = 1; i < N; i++)` -/
def inner (N : Nat) : List Nat := List.range' 1 (N - 1)

/-- cost, initial stage (lines 1139-1206, `stages = [0]`) and path (lines 1209-1286, `stages` 1 to N-1) -/
def costBlocks (d : Desc K) (k : Kind) (stages : List Nat) : List (Block K) :=
  [⟨decide (0 < d.N) && decide (d.ny k ≠ 0), stages, [(.yref, vec1 d k .yref (d.ny k))]⟩,
   ⟨decide (0 < d.N) && decide (d.ny k ≠ 0) && isLs d k, stages, [(.W, mat1 d k .W (d.ny k) (d.ny k))]⟩,
   ⟨decide (0 < d.N) && decide (d.ny k ≠ 0) && isLin d k, stages, [(.Vx, mat1 d k .Vx (d.ny k) d.nx)]⟩,
   ⟨decide (0 < d.N) && decide (d.ny k ≠ 0) && isLin d k && decide (0 < d.nu), stages, [(.Vu, mat1 d k .Vu (d.ny k) d.nu)]⟩,
   ⟨decide (0 < d.N) && decide (d.ny k ≠ 0) && isLin d k && decide (0 < d.nz), stages, [(.Vz, mat1 d k .Vz (d.ny k) d.nz)]⟩]

/-- cost, terminal stage, lines 1289-1328 -/
def costBlocksE (d : Desc K) (N : Nat) : List (Block K) :=
  [⟨decide (d.ny .term ≠ 0), [N], [(.yref, vec1 d .term .yref (d.ny .term))]⟩,
   ⟨decide (d.ny .term ≠ 0) && isLs d .term, [N], [(.W, mat1 d .term .W (d.ny .term) (d.ny .term))]⟩,
   ⟨decide (d.ny .term ≠ 0) && isLin d .term, [N], [(.Vx, mat1 d .term .Vx (d.ny .term) d.nx)]⟩]

/-- slack penalties, lines 1330-1458; the first two under `N_horizon > 0` -/
def slackBlocks (d : Desc K) (N : Nat) : List (Block K) :=
  let w := fun (k : Kind) =>
    [(Fld.Zl, slack d k 0 (d.ns k)), (Fld.Zu, slack d k 1 (d.ns k)), (Fld.zl, slack d k 2 (d.ns k)), (Fld.zu, slack d k 3 (d.ns k))]
  [⟨decide (0 < d.N) && decide (0 < d.ns .init), [0], w .init⟩,
   ⟨decide (0 < d.N) && decide (0 < d.ns .path), inner N, w .path⟩,
   ⟨decide (0 < d.ns .term), [N], w .term⟩]

/-- three setters: an index array and the lower and upper values -/
def softSets (d : Desc K) (k : Kind) (fi fl fu : Fld) (n : Nat) : List (Fld × Val K) :=
  [(fi, idx1 d k fi n), (fl, lower d k fl fu n), (fu, upper d k fl fu n)]

/-- two setters: the lower and upper values -/
def boundSets (d : Desc K) (k : Kind) (fl fu : Fld) (n : Nat) : List (Fld × Val K) :=
  [(fl, lower d k fl fu n), (fu, upper d k fl fu n)]

/-- the `idxs_rev` formulation, lines 1534-1562, 1824-1853, 2055-2082: `ni_no_s` index entries, `ns` bounds -/
def revSets (d : Desc K) (k : Kind) (rows : Nat) : List (Fld × Val K) :=
  [(.idxs_rev, idx1 d k .idxs_rev rows), (.ls, lower d k .ls .us (d.ns k)), (.us, upper d k .ls .us (d.ns k))]

/-- constraints of the initial stage, lines 1463-1615 -/
def initBlocks (d : Desc K) : List (Block K) :=
  let hz := decide (0 < d.N)
  [⟨hz && decide (0 < d.nbx .init), [0], softSets d .init .idxbx .lbx .ubx (d.nbx .init)⟩,
   ⟨hz && decide (0 < d.nbxe0), [0], [(.idxbxe, idx1 d .init .idxbxe d.nbxe0)]⟩,
   ⟨hz && decide (0 < d.nh .init), [0], boundSets d .init .lh .uh (d.nh .init)⟩,
   ⟨hz && !decide (0 < d.nh .init) && (decide (0 < d.nphi .init) && d.bgp .init), [0], boundSets d .init .lphi .uphi (d.nphi .init)⟩,
   ⟨hz && d.hasRev .init, [0], revSets d .init (d.nbu + d.nbx .init + d.ng .path + d.nh .init + d.nphi .init)⟩,
   ⟨hz && !d.hasRev .init && decide (0 < d.nsh .init), [0], softSets d .init .idxsh .lsh .ush (d.nsh .init)⟩,
   ⟨hz && !d.hasRev .init && decide (0 < d.nsphi .init), [0], softSets d .init .idxsphi .lsphi .usphi (d.nsphi .init)⟩]

/-- constraints that are the same for initial and intermediate stages, lines 1618-1743 -/
def sharedBlocks (d : Desc K) (N : Nat) : List (Block K) :=
  let hz := decide (0 < d.N)
  [⟨hz && decide (0 < d.nbu), List.range N, softSets d .path .idxbu .lbu .ubu d.nbu⟩,
   ⟨hz && decide (0 < d.ng .path), List.range N,
     (Fld.D, mat1 d .path .D (d.ng .path) d.nu) :: (Fld.C, mat1 d .path .C (d.ng .path) d.nx) :: boundSets d .path .lg .ug (d.ng .path)⟩,
   ⟨hz && decide (0 < d.nsbu), List.range N, softSets d .path .idxsbu .lsbu .usbu d.nsbu⟩,
   ⟨hz && decide (0 < d.nsg .path), List.range N, softSets d .path .idxsg .lsg .usg (d.nsg .path)⟩]

/-- path constraints, lines 1746-1952 -/
def pathBlocks (d : Desc K) (N : Nat) : List (Block K) :=
  let hz := decide (0 < d.N)
  [⟨hz && decide (0 < d.nbx .path), inner N, softSets d .path .idxbx .lbx .ubx (d.nbx .path)⟩,
   ⟨hz && decide (0 < d.nh .path), inner N, boundSets d .path .lh .uh (d.nh .path)⟩,
   ⟨hz && (decide (0 < d.nphi .path) && d.bgp .path), inner N, boundSets d .path .lphi .uphi (d.nphi .path)⟩,
   ⟨hz && d.hasRev .path, inner N, revSets d .path (d.nbu + d.nbx .path + d.ng .path + d.nh .path + d.nphi .path)⟩,
   ⟨hz && !d.hasRev .path && decide (0 < d.nsbx .path), inner N, softSets d .path .idxsbx .lsbx .usbx (d.nsbx .path)⟩,
   ⟨hz && !d.hasRev .path && decide (0 < d.nsh .path), inner N, softSets d .path .idxsh .lsh .ush (d.nsh .path)⟩,
   ⟨hz && !d.hasRev .path && decide (0 < d.nsphi .path), inner N, softSets d .path .idxsphi .lsphi .usphi (d.nsphi .path)⟩]

/-- terminal constraints, lines 1955-2185 -/
def termBlocks (d : Desc K) (N : Nat) : List (Block K) :=
  [⟨decide (0 < d.nbx .term), [N], softSets d .term .idxbx .lbx .ubx (d.nbx .term)⟩,
   ⟨decide (0 < d.ng .term), [N], (Fld.C, mat1 d .term .C (d.ng .term) d.nx) :: boundSets d .term .lg .ug (d.ng .term)⟩,
   ⟨decide (0 < d.nh .term), [N], boundSets d .term .lh .uh (d.nh .term)⟩,
   ⟨!decide (0 < d.nh .term) && (decide (0 < d.nphi .term) && d.bgp .term), [N], boundSets d .term .lphi .uphi (d.nphi .term)⟩,
   ⟨d.hasRev .term, [N], revSets d .term (d.nbx .term + d.ng .term + d.nh .term + d.nphi .term)⟩,
   ⟨!d.hasRev .term && decide (0 < d.nsg .term), [N], softSets d .term .idxsg .lsg .usg (d.nsg .term)⟩,
   ⟨!d.hasRev .term && decide (0 < d.nsh .term), [N], softSets d .term .idxsh .lsh .ush (d.nsh .term)⟩,
   ⟨!d.hasRev .term && decide (0 < d.nsphi .term), [N], softSets d .term .idxsphi .lsphi .usphi (d.nsphi .term)⟩,
   ⟨!d.hasRev .term && decide (0 < d.nsbx .term), [N], softSets d .term .idxsbx .lsbx .usbx (d.nsbx .term)⟩]

/-- lines 1136-2186 in order -/
def blocks (d : Desc K) (N : Nat) : List (Block K) :=
  costBlocks d .init [0] ++ costBlocks d .path (inner N) ++ costBlocksE d N ++ slackBlocks d N ++
  initBlocks d ++ sharedBlocks d N ++ pathBlocks d N ++ termBlocks d N

end blocks

/-- one setter call -/
def setFld (i : Nat) (s : Nat → Fld → Option (Val K)) (fv : Fld × Val K) : Nat → Fld → Option (Val K) :=
  fun j g => if j = i ∧ g = fv.1 then some fv.2 else s j g

/-- one part of the template -/
def runBlock (s : Nat → Fld → Option (Val K)) (b : Block K) : Nat → Fld → Option (Val K) :=
  if b.cond then b.stages.foldl (fun (s : Nat → Fld → Option (Val K)) i => b.sets.foldl (setFld i) s) s else s

/-- `acados_create_setup_nlp_in_numerical_values`, lines 1061-2186.  The first line asserts that `N` is the number of
stages of the capsule. -/
def setup [Zero K] [DecidableEq K] (d : Desc K) (capN N : Nat) (newTs : Option (Nat → K)) (s : In K) : Res (In K) :=
  if N ≠ capN then .exit
  else (steps d capN N newTs s).bind (fun s => .ok { s with fld := (blocks d N).foldl runBlock s.fld })

/-! ### Parameters -/

/-- `acados_update_params`, lines 3152-3165 -/
def updateParams (d : Desc K) (stage : Nat) (p : Nat → K) (np : Nat) (s : In K) : Res (In K) :=
  if d.np ≠ np then .exit else .ok { s with p := Function.update s.p stage (fun j => if j < np then p j else s.p stage j) }

/-- `acados_set_p_global_and_precompute_dependencies`, lines 3176-3199 -/
def setPGlobal (d : Desc K) (data : List K) (s : In K) : Res (In K) :=
  if 0 < d.nGlobalData then
    if data.length ≠ d.npGlobal then .exit else .ok { s with globalData := d.pre data }
  else .ok s

/-- `acados_create_set_default_parameters`, lines 1009-1055 (both ways of filling the array give `parameter_values`) -/
def defaultParams (d : Desc K) (capN : Nat) (s : In K) : Res (In K) :=
  let r : Res (In K) :=
    if 0 < d.np then
      (List.range (capN + 1)).foldl (fun (r : Res (In K)) i => r.bind (updateParams d i d.p d.np)) (.ok s)
    else .ok s
  if 0 < d.npGlobal then r.bind (setPGlobal d ((List.range d.npGlobal).map d.pGlobal)) else r

/-! ### The iterate -/

/-- `ocp_nlp_out_set` for the states / inputs of one stage: the first `n` entries -/
def setRow (n : Nat) (v : Nat → K) (i : Nat) (x : Nat → Nat → K) : Nat → Nat → K :=
  Function.update x i (fun j => if j < n then v j else x i j)

/-- `ocp_nlp_out_create`, `ocp_nlp_out_set_values_to_zero`: all numbers are zero (the write of the latter behind the
multipliers of the dynamics is modelled in `Flat`) -/
def zeroIter [Zero K] : Iter K := ⟨fun _ _ => 0, fun _ _ => 0, fun _ _ => 0⟩

/-- `acados_set_nlp_out`, lines 2948-2983 -/
def setNlpOut [Zero K] (d : Desc K) (N : Nat) (o : Iter K) : Iter K :=
  let x0 : Nat → K := if d.nbx .init = d.nx ∧ 0 < d.N then (fun j => if j < d.nx then d.vec .init .lbx j else 0) else (fun _ => 0)
  let o := (List.range N).foldl (fun (o : Iter K) i =>
    { o with x := setRow d.nx x0 i o.x, u := setRow d.nu (fun _ => 0) i o.u }) o
  { o with x := setRow d.nx x0 N o.x }

/-! ### Creation and reset -/

/-- problem data before the first setter call: `ocp_nlp_in_create`, with `scaling = 1.0` from the `model_assign` functions
of the cost modules (`ocp_nlp_cost_ls.c` line 228 and the like) -/
def freshIn [Zero K] [One K] : In K := ⟨fun _ => 0, fun _ => 1, fun _ _ => none, fun _ _ => 0, []⟩

/-- `acados_create_with_discretization`, lines 3001-3056 -/
def create [Zero K] [One K] [DecidableEq K] (d : Desc K) (N : Nat) (newTs : Option (Nat → K)) : Res (Capsule K) :=
  if N ≠ d.N ∧ newTs.isNone = true then .refused
  else
    (setup d N N newTs freshIn).bind (fun s => (defaultParams d N s).bind (fun s => .ok ⟨N, s, setNlpOut d N zeroIter⟩))

/-- `ocp_nlp_constraints_model_get(…, 0, "lbx", buffer)` into a buffer of zeros -/
def x0Buffer [Zero K] (s : In K) : Nat → K :=
  match s.fld 0 .lbx with
  | some (.nums l) => fun j => l.getD j 0
  | _ => fun _ => 0

/-- `acados_reset`, lines 3090-3148; the flags for the QP solver memory and the options do not concern this state -/
def reset [Zero K] [DecidableEq K] (d : Desc K) (numerical x0bar : Bool) (c : Capsule K) : Res (Capsule K) :=
  let r : Res (In K) :=
    if numerical then (defaultParams d c.N c.inp).bind (setup d c.N c.N none) else .ok c.inp
  r.bind (fun s =>
    let o : Iter K := zeroIter
    let o := if x0bar && d.hasX0 then
      (List.range (c.N + 1)).foldl (fun (o : Iter K) i => { o with x := setRow d.nx (x0Buffer s) i o.x }) o else o
    .ok { c with inp := s, out := o })

/-! ### Calls of the user between creation and reset -/

/-- what a user can do with the data of a solver -/
inductive Op (K : Type)
  /-- any setter of the cost or constraint module -/
  | set (i : Nat) (f : Fld) (v : Val K)
  /-- `cost_set(i, "scaling", …)` -/
  | setScaling (i : Nat) (v : K)
  /-- `acados_update_time_steps` -/
  | timeSteps (N : Nat) (ts : Nat → K)
  | params (i : Nat) (p : Nat → K)
  | pGlobal (data : List K)
  /-- a solve, or setting the iterate: any new iterate -/
  | iterate (o : Iter K)
  | reset (numerical x0bar : Bool)

/-- one call -/
def step [Zero K] [DecidableEq K] (d : Desc K) (c : Capsule K) : Op K → Res (Capsule K)
  | .set i f v => .ok { c with inp := { c.inp with fld := setFld i c.inp.fld (f, v) } }
  | .setScaling i v => .ok { c with inp := putScaling i v c.inp }
  | .timeSteps N ts => match updateSteps d c.N N ts c.inp with
    | .refused => .ok c
    | r => r.bind (fun s => .ok { c with inp := s })
  | .params i p => (updateParams d i p d.np c.inp).bind (fun s => .ok { c with inp := s })
  | .pGlobal data => (setPGlobal d data c.inp).bind (fun s => .ok { c with inp := s })
  | .iterate o => .ok { c with out := o }
  | .reset nm x0 => reset d nm x0 c

/-- a history of calls -/
def run [Zero K] [DecidableEq K] (d : Desc K) (c : Capsule K) (ops : List (Op K)) : Res (Capsule K) :=
  ops.foldl (fun (r : Res (Capsule K)) o => r.bind (fun c => step d c o)) (.ok c)

/-! ### `AcadosOcpSolver.set_new_time_steps` -/

/-- the Python object: the solver and its record of the time steps, `steps` (`self.ocp.solver_options.time_steps`) -/
structure Py (K : Type) where
  cap : Capsule K
  steps : List K

/-- `AcadosOcpSolver.set_new_time_steps`, `acados_ocp_solver.py` lines 670-715 -/
def setNewTimeSteps [Zero K] [One K] [DecidableEq K] (d : Desc K) (py : Py K) (new : List K) : Res (Py K) :=
  if py.steps = new then .ok py
  else if py.steps.length = new.length then
    (updateSteps d py.cap.N new.length (fun i => new.getD i 0) py.cap.inp).bind (fun s =>
      .ok ⟨{ py.cap with inp := s }, new⟩)
  else
    (create d new.length (some (fun i => new.getD i 0))).bind (fun c => .ok ⟨c, new⟩)

/-- calls of the Python object -/
inductive PyOp (K : Type)
  | newSteps (new : List K)
  | other (o : Op K)

def pyStep [Zero K] [One K] [DecidableEq K] (d : Desc K) (py : Py K) : PyOp K → Res (Py K)
  | .newSteps new => setNewTimeSteps d py new
  | .other o => (step d py.cap o).bind (fun c => .ok { py with cap := c })

def pyRun [Zero K] [One K] [DecidableEq K] (d : Desc K) (py : Py K) (ops : List (PyOp K)) : Res (Py K) :=
  ops.foldl (fun (r : Res (Py K)) o => r.bind (fun p => pyStep d p o)) (.ok py)

end Acados.GenSolver
