import Verif.Spec.Params
import Verif.Model.Casadi
import Mathlib.Algebra.Ring.Int.Defs
/-!
# Parameter memory and external functions

`interfaces/acados_c/ocp_nlp_interface.c`, `acados/ocp_nlp/ocp_nlp_common.c`,
`acados/utils/external_function_generic.c`.

The memory of the problem input is an array of numbers addressed by integers (units of `sizeof(double)`, address 0 is the
first parameter of stage 0): writing outside a stage's block hits whatever is there, exactly as in C.
-/
namespace Acados.Params
variable {K : Type*}

/-- kind of an external function with external parameter memory -/
inductive Kind where
  /-- `external_function_external_param_generic` -/
  | generic
  /-- `external_function_external_param_casadi`; flag: the parameter argument is dense (`args_dense[idx_in_p]`) -/
  | casadi (dense : Bool)
deriving DecidableEq

/-- relevant state: memory of the `ocp_nlp_in`, pointers of the external functions (`none`: `param_mem_is_set` false) -/
structure St (K : Type*) where
  heap : Int → K
  ptr : Nat → Option Int

/-- `ocp_nlp_in_assign`, `ocp_nlp_common.c` lines 907-918: the pointers `parameter_values[i]`, one block after the other -/
def base (np : Nat → Nat) : Nat → Int
  | 0 => 0
  | s + 1 => base np s + np s

/-- `ocp_nlp_in_assign`, lines 912-918: all parameters are set to zero; no function is attached
(`external_function_external_param_casadi_assign` line 1556, `..._generic_calculate_size` line 1315) -/
def init [Zero K] (np : Nat → Nat) (N : Nat) (junk : Int → K) : St K where
  heap := (List.range (N + 1)).foldl (fun h s => (List.range (np s)).foldl
    (fun h (i : Nat) => Function.update h (base np s + i) 0) h) junk
  ptr := fun _ => none

/-- `ocp_nlp_in_set`, field `parameter_values`, lines 442-449 -/
def inSet (np : Nat → Nat) (stage : Nat) (p : Nat → K) (h : Int → K) : Int → K :=
  (List.range (np stage)).foldl (fun h (i : Nat) => Function.update h (base np stage + i) (p i)) h

/-- `ocp_nlp_in_set_params_sparse`, lines 459-470: no test of the indices -/
def inSetSparse (np : Nat → Nat) (stage : Nat) (upd : List (Int × K)) (h : Int → K) : Int → K :=
  upd.foldl (fun h u => Function.update h (base np stage + u.1) u.2) h

/-- one stage of the loop in `ocp_nlp_set_all`, field `p`, lines 2104-2111 (first component: `tmp_offset`) -/
def setStage (np : Nat → Nat) (p : Nat → K) (s : Nat × (Int → K)) (stage : Nat) : Nat × (Int → K) :=
  (s.1 + np stage, (List.range (np stage)).foldl
    (fun h (i : Nat) => Function.update h (base np stage + i) (p (s.1 + i))) s.2)

/-- `ocp_nlp_set_all`, field `p`, lines 2101-2112 -/
def setAllP (np : Nat → Nat) (N : Nat) (p : Nat → K) (h : Int → K) : Int → K :=
  ((List.range (N + 1)).foldl (setStage np p) (0, h)).2

/-- `ocp_nlp_in_get`, field `p`, lines 491-498 -/
def inGet (np : Nat → Nat) (stage : Nat) (h : Int → K) (out : Nat → K) : Nat → K :=
  (List.range (np stage)).foldl (fun o (i : Nat) => Function.update o i (h (base np stage + i))) out

/-- one stage of the loop in `ocp_nlp_get_all`, field `p`, lines 2000-2008 -/
def getStage (np : Nat → Nat) (h : Int → K) (s : Nat × (Nat → K)) (stage : Nat) : Nat × (Nat → K) :=
  (s.1 + np stage, (List.range (np stage)).foldl
    (fun o (i : Nat) => Function.update o (s.1 + i) (h (base np stage + i))) s.2)

/-- `ocp_nlp_get_all`, field `p`, lines 1997-2009 -/
def getAllP (np : Nat → Nat) (N : Nat) (h : Int → K) (out : Nat → K) : Nat → K :=
  ((List.range (N + 1)).foldl (getStage np h) (0, out)).2

/-- `ocp_nlp_{dynamics,cost,constraints}_model_set_external_param_fun`, lines 544-597, with `set_param_pointer`,
`external_function_generic.c` lines 1283-1291 and 1379-1393; `none`: `exit(1)` -/
def attach (np : Nat → Nat) (kind : Nat → Kind) (f stage : Nat) (s : St K) : Option (St K) :=
  if kind f = .casadi false then none
  else some { s with ptr := Function.update s.ptr f (some (base np stage)) }

/-- one request; `none`: the process ends -/
def step (np : Nat → Nat) (N : Nat) (kind : Nat → Kind) (s : St K) : Op K → Option (St K)
  | .setAll st p => some { s with heap := inSet np st p s.heap }
  | .setSparse st upd => some { s with heap := inSetSparse np st upd s.heap }
  | .setFlat p => some { s with heap := setAllP np N p s.heap }
  | .attach f st => attach np kind f st s

/-- a history of requests -/
def run (np : Nat → Nat) (N : Nat) (kind : Nat → Kind) (s : St K) (ops : List (Op K)) : Option (St K) :=
  ops.foldlM (step np N kind) s

/-- what an evaluation passes to the function as parameters -/
inductive Eval (K : Type*) where
  /-- `exit(1)` -/
  | exit
  /-- an uninitialised pointer is passed (undefined behaviour) -/
  | wild
  /-- the vector read through the pointer -/
  | params (p : Nat → K)

/-- parameter argument in `external_function_external_param_generic_wrapper` (lines 1345-1353: no test) and
`external_function_external_param_casadi_wrapper` (lines 1582-1597), without global data -/
def evaluate (kind : Nat → Kind) (s : St K) (f : Nat) : Eval K :=
  match kind f, s.ptr f with
  | .casadi _, none => .exit
  | .generic, none => .wild
  | _, some a => .params fun i => s.heap (a + i)

/-- `{{name}}_acados_update_params` (`acados_solver.in.c` lines 3152-3165), `none`: `exit(1)` -/
def updateParams (npTemplate : Nat) (np : Nat → Nat) (stage : Nat) (p : Nat → K) (n : Nat) (s : St K) : Option (St K) :=
  if npTemplate ≠ n then none else some { s with heap := inSet np stage p s.heap }

/-! ### Functions with their own parameter memory -/

/-- `external_function_param_generic_set_param`, lines 167-179 -/
def genericSet (np : Nat) (p : Nat → K) (own : Nat → K) : Nat → K :=
  (List.range np).foldl (fun o (i : Nat) => Function.update o i (p i)) own

/-- `external_function_param_generic_set_param_sparse`, lines 80-91; integer addresses: no test of the indices -/
def genericSetSparse (upd : List (Int × K)) (own : Int → K) : Int → K :=
  upd.foldl (fun o u => Function.update o u.1 u.2) own

/-- `external_function_param_casadi_set_param`, lines 1028-1038 -/
def casadiSet [Zero K] (sp : Nat → Nat) (p : Nat → K) (own : Nat → K) : Nat → K :=
  Casadi.fromColmaj sp (Casadi.isDense sp) p own

/-- `external_function_param_casadi_set_param_sparse`, lines 1041-1060; `none`: `exit(1)` -/
def casadiSetSparse (sp : Nat → Nat) (upd : List (Int × K)) (own : Int → K) : Option (Int → K) :=
  if Casadi.isDense sp then some (upd.foldl (fun o u => Function.update o u.1 u.2) own) else none

end Acados.Params
