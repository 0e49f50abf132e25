import Verif.Spec.Batch
import Verif.Model.Flat
import Verif.Model.NlpStep
/-!
# Batch functions of the generated solver and the Python batch solver

`c_templates_tera/acados_solver.in.c` lines 3222-3632, `acados_ocp_batch_solver.py`.  All solvers of a batch come from the
same generated code and have the same dimensions.  They share no memory that is written.
-/
namespace Acados.Batch
open Acados.Flat
open Acados.Step (Interleaves exec seqSched)
variable {K R : Type}

/-- what a capsule stores, as far as the batch setters and getters are concerned: the iterate, the output of sensitivity
computations, the mask of the inequalities, parameters, guesses for the integrator; `rest` stands for all other data -/
structure Cap (K R : Type) where
  out : Adr → K
  sens : Adr → K
  mask : Nat → Nat → K
  p : Nat → Nat → K
  guess : Nat → Nat → K
  guessSet : Nat → Bool
  rest : R

/-- fields of `AcadosOcpBatchSolver.set` -/
inductive SField | out (f : Field) | sensX | sensU | p | xdotGuess | zGuess
  deriving DecidableEq

/-- dimensions, with the number of parameters of a stage -/
structure PDims extends Flat.Dims where
  np : Nat → Nat

/-- `ocp_nlp_dims_get_from_attr`, `ocp_nlp_interface.c` lines 814-926 -/
def attr (d : PDims) (k : Nat) : Field → Nat
  | .x => d.nx k
  | .pi => d.nx (k + 1)
  | .u => d.nu k
  | .z => d.nz k
  | .lam => 2 * d.ni k
  | .s => 2 * d.ns k
  | .sl | .su => d.ns k

/-- the dimension a batch setter uses, `acados_solver.in.c` lines 3430-3439 and `ocp_nlp_interface.c` lines 814-926 -/
def dimOf (d : PDims) (k : Nat) : SField → Nat
  | .sensX => attr d k .x
  | .sensU => attr d k .u
  | .out f => attr d k f
  | .p => d.np k
  | .xdotGuess => d.nx k
  | .zGuess => d.nz k

/-- `blasfeo_pack_dvec(n, v, 1, guess + k, off)` -/
def packRow (n : Nat) (v : Nat → K) (off k : Nat) (g : Nat → Nat → K) : Nat → Nat → K :=
  fun k' j => if k' = k ∧ off ≤ j ∧ j < off + n then v (j - off) else g k' j

/-- `ocp_nlp_out_set` on the iterate -/
def setOut [Mul K] (d : PDims) (k : Nat) (f : Field) (v : Nat → K) (c : Cap K R) : Cap K R :=
  { c with out := (outSet d.toDims c.mask k f v c.out).getD c.out }

/-- `ocp_nlp_out_set` on the output of sensitivity computations -/
def setSens [Mul K] (d : PDims) (k : Nat) (f : Field) (v : Nat → K) (c : Cap K R) : Cap K R :=
  { c with sens := (outSet d.toDims c.mask k f v c.sens).getD c.sens }

/-- `acados_update_params` with the right number of parameters -/
def setP (d : PDims) (k : Nat) (v : Nat → K) (c : Cap K R) : Cap K R :=
  { c with p := packRow (d.np k) v 0 k c.p }

/-- `ocp_nlp_set`, `ocp_nlp_interface.c` lines 2121-2146, field `z_guess` -/
def setZGuess (d : PDims) (k : Nat) (v : Nat → K) (c : Cap K R) : Cap K R :=
  { c with guess := packRow (d.nz k) v (d.nx k) k c.guess,
           guessSet := if 0 < d.nz k then Function.update c.guessSet k true else c.guessSet }

/-- `ocp_nlp_set`, lines 2147-2153, field `xdot_guess` -/
def setXdotGuess (d : PDims) (k : Nat) (v : Nat → K) (c : Cap K R) : Cap K R :=
  { c with guess := packRow (d.nx k) v 0 k c.guess, guessSet := Function.update c.guessSet k true }

/-- `AcadosOcpSolver.set`, `acados_ocp_solver.py` lines 1984-2060 (fields of the batch setter); `none`: an exception, or for
parameters the end of the process -/
def pySet [Mul K] (d : PDims) (k : Nat) (f : SField) (v : List K) [Zero K] (c : Cap K R) : Option (Cap K R) :=
  let w : Nat → K := fun j => v.getD j 0
  if v.length ≠ dimOf d k f then none
  else match f with
    | .out g =>
      let c := setOut d k g w c
      some (if g = .z then setZGuess d k w c else c)
    | .xdotGuess => some (setXdotGuess d k w c)
    | .zGuess => some (setZGuess d k w c)
    | .sensX => some (setSens d k .x w c)
    | .sensU => some (setSens d k .u w c)
    | .p => some (setP d k w c)

/-- loop bodies of `acados_batch_set`, `acados_solver.in.c` lines 3449-3502: the calls of one iteration, `v` is `data + i * dim` -/
def setBody [Mul K] (d : PDims) (k : Nat) (f : SField) (v : Nat → K) : List (Cap K R → Cap K R) :=
  match f with
  | .sensX => [setSens d k .x v]
  | .sensU => [setSens d k .u v]
  | .p => [setP d k v]
  | .xdotGuess => [setXdotGuess d k v]
  | .zGuess => [setZGuess d k v]
  | .out .z => [setOut d k .z v, setZGuess d k v]
  | .out f => [setOut d k f v]

/-- `#pragma omp parallel for` over the capsules: the actions of iteration `i` on capsule `i` -/
def loop {C : Type} (n : Nat) (body : Nat → List (C → C)) : Nat → List ((Nat → C) → Nat → C) :=
  fun i => if i < n then (body i).map fun a caps => Function.update caps i (a (caps i)) else []

/-- `acados_batch_set`, lines 3426-3509; `none`: `exit(1)` -/
def cSet [Mul K] (d : PDims) (k : Nat) (f : SField) (data : Nat → K) (nData nBatch : Nat) :
    Option (Nat → List ((Nat → Cap K R) → Nat → Cap K R)) :=
  if nBatch * dimOf d k f ≠ nData then none
  else some (loop nBatch fun i => setBody d k f fun j => data (i * dimOf d k f + j))

/-- `acados_batch_set_flat`, lines 3342-3369; `none`: `exit(1)` -/
def cSetFlat [Mul K] (d : PDims) (f : Field) (data : Nat → K) (nData nBatch : Nat) :
    Option (Nat → List ((Nat → Cap K R) → Nat → Cap K R)) :=
  if nBatch * total d.toDims f ≠ nData then none
  else some (loop nBatch fun i => [fun c =>
    { c with out := setAll d.toDims c.mask f (fun j => data (i * total d.toDims f + j)) c.out }])

/-- one number written into an array -/
def write (q : Nat) (v : K) (a : Nat → K) : Nat → K := Function.update a q v

/-- the loop of a getter: iteration `i` writes `dim` numbers, one after the other, to `data + i * dim` -/
def getLoop (n dim : Nat) (src : Nat → Nat → K) : Nat → List ((Nat → K) → Nat → K) :=
  fun i => if i < n then (List.range dim).map fun j => write (i * dim + j) (src i j) else []

/-- fields of `AcadosOcpBatchSolver.get` -/
inductive GField | out (f : Field) | sens (f : Field) | p
  deriving DecidableEq

/-- the dimension, lines 3519-3556: that of the field without `sens_` -/
def getDim (d : PDims) (k : Nat) : GField → Nat
  | .out f | .sens f => attr d k f
  | .p => d.np k

/-- number `j` that `ocp_nlp_out_get` / `ocp_nlp_in_get` reads from a capsule, lines 3570-3596 -/
def getSrc (d : PDims) (k : Nat) (f : GField) (c : Cap K R) (j : Nat) : K :=
  match f with
  | .out f => c.out (f.place d.toDims k j)
  | .sens f => c.sens (f.place d.toDims k j)
  | .p => c.p k j

/-- `acados_batch_get`, lines 3512-3603; `none`: `exit(1)` -/
def cGet (d : PDims) (k : Nat) (f : GField) (caps : Nat → Cap K R) (nData nBatch : Nat) :
    Option (Nat → List ((Nat → K) → Nat → K)) :=
  if nBatch * getDim d k f ≠ nData then none
  else some (getLoop nBatch (getDim d k f) fun i j => getSrc d k f (caps i) j)

/-- `acados_batch_get_flat`, lines 3373-3400; `none`: `exit(1)` -/
def cGetFlat [Zero K] (d : PDims) (f : Field) (caps : Nat → Cap K R) (nData nBatch : Nat) :
    Option (Nat → List ((Nat → K) → Nat → K)) :=
  if nBatch * total d.toDims f ≠ nData then none
  else some (getLoop nBatch (total d.toDims f) fun i j => getAll d.toDims (caps i).out f (fun _ => 0) j)

/-- `AcadosOcpBatchSolver.eval_adjoint_solution_sensitivity`, lines 297-317, and `acados_batch_eval_solution_sens_adj_p`,
lines 3318-3338, for one seed: `out = grad_p + i_seed * np_global`, `offset = n_seeds * np_global`; `adj i s` is the
adjoint of solver `i` for seed `s` -/
def adjLoop (n nSeeds np : Nat) (adj : Nat → Nat → Nat → K) (s : Nat) : Nat → List ((Nat → K) → Nat → K) :=
  fun i => if i < n then (List.range np).map fun j => write (s * np + i * (nSeeds * np) + j) (adj i s j) else []

/-- `AcadosOcpBatchSolver.constraints_set`, lines 709-733: `value_.transpose(0, 2, 1).reshape(n_batch, -1)` of an array with
shape `(n, a, b)`, in C order -/
def conData (a b : Nat) (v : Nat → Nat → Nat → K) (q : Nat) : K :=
  v (q / (b * a)) (q % (b * a) % a) (q % (b * a) / a)

/-- the test of `acados_batch_constraints_set`, lines 3609-3618, for a field with `r` rows and `c` columns -/
def conAccepts (n a b r c : Nat) : Prop := n * (r * (if c = 0 then 1 else c)) = n * (a * b)

/-- the test of `AcadosOcpSolver.constraints_set`, lines 2238-2266 -/
def conAcceptsSingle (a b r c : Nat) : Prop := (a, b) = (r, c)

/-- numpy: `dst[:, k] = src` for a column of length `m` and an array of length `src.length`; `none`: an exception -/
def assignCol (m : Nat) (src : List K) : Option (List K) :=
  if src.length = m then some src
  else match src with
    | [x] => some (List.replicate m x)
    | _ => none

/-- `eval_solution_sensitivity`, `acados_ocp_batch_solver.py` lines 430-470 and `acados_ocp_solver.py` lines 971-1004, for
`sens_sl`: the column has the dimension of `s`, the values are those of `sl` -/
def slackSens (d : PDims) (k : Nat) (sl : List K) : Option (List K) := assignCol (attr d k .s) sl

/-! ### The Python object -/

variable {C : Type}

/-- a member of the batch: its capsule, its `_status`, and whether it keeps the global parameters -/
structure Solver (C : Type) where
  cap : C
  status : Int
  saveP : Bool

/-- `AcadosOcpBatchSolver`: the solvers (the array of capsule pointers has the same length), `n_batch_current`, the array
`__status` -/
structure Obj (C : Type) where
  solvers : List (Solver C)
  cur : Nat
  status : List Int

/-- `AcadosOcpBatchSolver.__init__`, lines 59-97; `fresh` is a newly created capsule -/
def objNew (fresh : C) (saveP : Bool) (n : Nat) : Obj C := ⟨List.replicate n ⟨fresh, 0, saveP⟩, n, List.replicate n 0⟩

/-- `_create_missing_solvers`, lines 668-691 -/
def createMissing (fresh : C) (n : Nat) (o : Obj C) : Obj C :=
  if 0 < n - o.solvers.length then
    ⟨o.solvers ++ List.replicate (n - o.solvers.length) ⟨fresh, 0, false⟩, o.cur,
      o.status ++ List.replicate (n - o.status.length) 0⟩
  else o

/-- the size logic of the setters, e.g. lines 800-804 -/
def grow (fresh : C) (n : Nat) (o : Obj C) : Obj C :=
  if n ≤ o.cur then { o with cur := n } else createMissing fresh n { o with cur := n }

/-- the size logic of `solve` and the getters, e.g. lines 171-177 -/
def shrink (n : Option Nat) (o : Obj C) : Res (Nat × Obj C) :=
  match n with
  | none => .ok (o.cur, o)
  | some n => if n ≤ o.cur then .ok (n, { o with cur := n }) else .raise

/-- a C function that works on the first `n` capsules; more than there are pointers is undefined -/
def onAll (n : Nat) (f : Nat → C → C) (o : Obj C) : Res (Obj C) :=
  if o.solvers.length < n then .ub
  else .ok { o with solvers := o.solvers.mapIdx fun i s => if i < n then { s with cap := f i s.cap } else s }

/-- `acados_batch_solve`, lines 3223-3245: capsules and status array -/
def cSolve (sv : C → C × Int) (n : Nat) (o : Obj C) : Res (Obj C) :=
  if o.solvers.length < n ∨ o.status.length < n then .ub
  else .ok { o with
    solvers := o.solvers.mapIdx fun i s => if i < n then { s with cap := (sv s.cap).1 } else s
    status := o.status.mapIdx fun i t => match o.solvers[i]? with
      | some s => if i < n then (sv s.cap).2 else t
      | none => t }

/-- `solve`, lines 181-183: the entries of the status array are copied to the solvers -/
def copyStatus (o : Obj C) : Obj C :=
  { o with solvers := o.solvers.mapIdx fun i s => match o.status[i]? with
      | some t => { s with status := t }
      | none => s }

/-- `solve`, lines 167-183 -/
def pySolve (sv : C → C × Int) (n : Option Nat) (o : Obj C) : Res (Obj C) :=
  (shrink n o).bind fun (n, o) => (cSolve sv n o).bind fun o => .ok (copyStatus o)

/-- one call; a member that does not exist raises an exception -/
def objStep (sv : C → C × Int) (fresh : C) (o : Obj C) : BOp C → Res (Obj C)
  | .change n f => onAll n f (grow fresh n o)
  | .solve n => pySolve sv n o
  | .read n => (shrink n o).bind fun (n, o) => onAll n (fun _ c => c) o
  | .single i f => if i < o.solvers.length then
      .ok { o with solvers := o.solvers.mapIdx fun j s => if j = i then { s with cap := f s.cap } else s } else .raise
  | .singleSolve i => if i < o.solvers.length then
      .ok { o with solvers := o.solvers.mapIdx fun j s => if j = i then { s with cap := (sv s.cap).1, status := (sv s.cap).2 } else s }
      else .raise

def objRun (sv : C → C × Int) (fresh : C) (o : Obj C) (ops : List (BOp C)) : Res (Obj C) :=
  ops.foldl (fun (r : Res (Obj C)) op => r.bind fun o => objStep sv fresh o op) (.ok o)

/-! ### Threads -/

/-- `omp_get_num_threads()` outside of a parallel region -/
def numThreadsSeq : Nat := 1

/-- the thread handling of the batch functions, e.g. lines 3225-3230 and 3238-3241: size of the team that runs the loop, and
the number of threads for later parallel regions; `icv` is that number before the call -/
def batchThreads (req icv : Nat) : Nat × Nat :=
  if 1 < req then (req, numThreadsSeq) else (icv, icv)

/-- the places where a solve that is called outside of a parallel region returns, with OpenMP: `ocp_nlp_sqp.c` lines 654, 750, 793, 808;
`ocp_nlp_sqp_with_feasible_qp.c` lines 1731, 1758, 1801, 1817; `ocp_nlp_sqp_rti.c` line 519 (preparation), 1131 (advanced
step, last line), 898-1096 (advanced step, other returns); `ocp_nlp_ddp.c` lines 689 (termination test), 773 (QP error), 812
(globalization), 821 (end of the loop) -/
inductive Exit | sqp | feasibleQp | rtiPrep | rtiAdvanced | rtiAdvancedEarly | ddpDone | ddpQp | ddpGlob | ddpEnd

/-- number of threads for later parallel regions after a solve with option `num_threads` -/
def solveThreads (num : Nat) : Exit → Nat
  | .rtiAdvancedEarly | .ddpGlob | .ddpEnd => num
  | _ => numThreadsSeq

/-- default of the option `num_threads`, `ocp_nlp_common.c` lines 1200-1208: a macro, or `omp_get_max_threads()` -/
def defaultThreads (macroVal : Option Nat) (icv : Nat) : Nat := macroVal.getD icv

end Acados.Batch
