import Verif.Model.NlpParam
import Mathlib.Algebra.Order.Field.Basic

/-!
# Options of the QP solver as seen through the NLP options

A user sets options by name with `ocp_nlp_solver_opts_set`; the name is split at its first underscore and the call is
passed on to the NLP options, the condensing module or one of the QP solver interfaces, each of which keeps the values
in its own form.  The solvers overwrite some of these options during a solve.  This file models the dispatch by name,
the setters of all QP solver interfaces, the default values, and the option writes of a solve, for arbitrary sequences
of option calls and solves.

Sources: acados/ocp_nlp/ocp_nlp_common.c, acados/ocp_nlp/ocp_nlp_sqp.c, acados/ocp_qp/ocp_qp_xcond_solver.c,
acados/ocp_qp/ocp_qp_*.c, acados/dense_qp/dense_qp_*.c, acados/utils/strsep.h and the template acados_solver.in.c.
-/

namespace Acados.QpOpts

open Acados.Param (Four TolOpts tolJoint tolScaling)

/-- C strings without the terminating zero -/
abbrev Name := List Char

/-- failures: `exit(1)`, or a value of another type read through a `void *` -/
inductive Err
  | exit
  | ub
deriving DecidableEq

/-- what the `void *value` points to -/
inductive Val (K : Type)
  | dbl (x : K)
  | int (n : Int)
  | str (s : Name)
deriving DecidableEq

/-- `*(double *) value` -/
def Val.asDbl {K : Type} : Val K → Except Err K
  | .dbl x => .ok x
  | _ => .error .ub

/-- `*(int *) value` -/
def Val.asInt {K : Type} : Val K → Except Err Int
  | .int n => .ok n
  | _ => .error .ub

/-- `(const char *) value` -/
def Val.asStr {K : Type} : Val K → Except Err Name
  | .str s => .ok s
  | _ => .error .ub

/-- `extract_module_name`, acados/utils/strsep.h:42-55: the part before the first underscore, nothing if there is none.
(The buffer of 256 characters is not modelled.) -/
def moduleOf (f : Name) : Option Name :=
  if '_' ∈ f then some (f.takeWhile (· != '_')) else none

/-- `field+module_length+1` -/
def restOf (f : Name) : Name := (f.dropWhile (· != '_')).drop 1

/-- routines of the QP solvers and modules that are not part of the code modelled here -/
structure Ext where
  /-- further fields `d_ocp_qp_ipm_arg_set`, `d_dense_qp_ipm_arg_set` of HPIPM accept -/
  argKnown : Name → Bool
  /-- `warm_start` after `d_ocp_qp_ipm_arg_set_default` for a mode -/
  modeWarm : Name → Int
  /-- fields of the condensing modules -/
  condOk : Name → Bool
  /-- fields of the modules `reg`, `qpscaling`, `globalization` -/
  subOk : Name → Name → Bool
  /-- fields of `ocp_nlp_opts` other than those modelled -/
  nlpOther : Name → Bool

/-! ## The QP solver interfaces -/

/-- options of HPIPM, ocp_qp_hpipm.c, dense_qp_hpipm.c: exit tolerances `res_g_max`, `res_b_max`, `res_d_max`,
`res_m_max`, iteration limit, warm start, print level and `m_relax`; `stat_max`, `alpha_min`, `mu0` and
`var_init_scheme` are left out -/
structure Hpipm (K : Type) where
  resG : K
  resB : K
  resD : K
  resM : K
  iterMax : Int
  warm : Int
  printLevel : Int
  mRelax : K
deriving DecidableEq

/-- settings of OSQP written by ocp_qp_osqp.c -/
structure Osqp (K : Type) where
  epsRel : K
  epsDualInf : K
  epsPrimInf : K
  polish : Bool
  verbose : Bool
  printLevel : Int
  maxIter : Int
  warm : Int
deriving DecidableEq

/-- settings of Clarabel written by ocp_qp_clarabel.c -/
structure Clarabel (K : Type) where
  firstRun : Bool
  tolGap : K
  tolInfeas : K
  maxIter : Int
  printLevel : Int
deriving DecidableEq

/-- options of dense_qp_qpoases.c -/
structure Qpoases (K : Type) where
  tolerance : K
  warm : Bool
  hot : Bool
  maxNwsr : Int
deriving DecidableEq

/-- options of dense_qp_daqp.c -/
structure Daqp (K : Type) where
  primalTol : K
  iterLimit : Int
  warm : Int
  printLevel : Int
deriving DecidableEq

/-- options of ocp_qp_qpdunes.c; the copy `qpDUNES_setup` takes of them is not modelled -/
structure Qpdunes (K : Type) where
  stat : K
  eq : K
  act : K
  maxIter : Int
deriving DecidableEq

/-- options of ocp_qp_hpmpc.c -/
structure Hpmpc (K : Type) where
  tol : K
  maxIter : Int
  warm : Int
deriving DecidableEq

/-- the QP solver interfaces; `plain` are dense_qp_qore.c, dense_qp_ooqp.c and ocp_qp_ooqp.c, whose setters store
nothing -/
inductive Qp (K : Type)
  | hpipm (o : Hpipm K)
  | osqp (o : Osqp K)
  | clarabel (o : Clarabel K)
  | qpoases (o : Qpoases K)
  | daqp (o : Daqp K)
  | qpdunes (o : Qpdunes K)
  | hpmpc (o : Hpmpc K)
  | plain
deriving DecidableEq

section
variable {K : Type} [Field K] [LinearOrder K]

/-- the modes HPIPM knows, ocp_qp_hpipm.c:149-156, dense_qp_hpipm.c:137-144 -/
def hpipmModes : List Name := ["BALANCE".toList, "SPEED".toList, "SPEED_ABS".toList, "ROBUST".toList]

/-- `ocp_qp_hpipm_opts_overwrite_mode_opts`, ocp_qp_hpipm.c:101-113, dense_qp_hpipm.c:94-105 -/
def hpipmOverwrite (o : Hpipm K) : Hpipm K :=
  { o with
    resG := 1 / 10 ^ 6
    resB := 1 / 10 ^ 8
    resD := 1 / 10 ^ 8
    resM := 1 / 10 ^ 8
    iterMax := 50 }

/-- `ocp_qp_hpipm_opts_set`, ocp_qp_hpipm.c:142-183, and `dense_qp_hpipm_opts_set`, dense_qp_hpipm.c:130-172; the
fields after `tau_min` are those of HPIPM's own `..._ipm_arg_set` -/
def hpipmSet (E : Ext) (f : Name) (v : Val K) (o : Hpipm K) : Except Err (Hpipm K) :=
  if f = "hpipm_mode".toList then do
    let m ← v.asStr
    if m ∈ hpipmModes then .ok (hpipmOverwrite { o with warm := E.modeWarm m }) else .error .exit
  else if f = "print_level".toList then do let n ← v.asInt; .ok { o with printLevel := n }
  else if f = "tau_min".toList then do let x ← v.asDbl; .ok { o with mRelax := x }
  else if f = "tol_stat".toList then do let x ← v.asDbl; .ok { o with resG := x }
  else if f = "tol_eq".toList then do let x ← v.asDbl; .ok { o with resB := x }
  else if f = "tol_ineq".toList then do let x ← v.asDbl; .ok { o with resD := x }
  else if f = "tol_comp".toList then do let x ← v.asDbl; .ok { o with resM := x }
  else if f = "iter_max".toList then do let n ← v.asInt; .ok { o with iterMax := n }
  else if f = "warm_start".toList then do let n ← v.asInt; .ok { o with warm := n }
  else if E.argKnown f then .ok o
  else .error .exit

/-- `ocp_qp_osqp_opts_set`, ocp_qp_osqp.c:1011-1079; `polish_refine_iter` is left out -/
def osqpSet (f : Name) (v : Val K) (o : Osqp K) : Except Err (Osqp K) :=
  if f = "iter_max".toList then do let n ← v.asInt; .ok { o with maxIter := n }
  else if f = "print_level".toList then do
    let n ← v.asInt
    .ok { o with printLevel := n, verbose := if 0 < n then true else o.verbose }
  else if f = "tol_stat".toList then do
    let x ← v.asDbl
    .ok { o with
      epsRel := max x (1 / 10 ^ 5)
      epsDualInf := max x (1 / 10 ^ 5)
      polish := if x ≤ 1 / 10 ^ 3 then true else o.polish }
  else if f = "tol_eq".toList then do let x ← v.asDbl; .ok { o with epsPrimInf := x }
  else if f = "tol_ineq".toList then do let x ← v.asDbl; .ok { o with epsPrimInf := x }
  else if f = "tol_comp".toList then .ok o
  else if f = "warm_start".toList then do let n ← v.asInt; .ok { o with warm := n }
  else .error .exit

/-- `ocp_qp_clarabel_opts_set`, ocp_qp_clarabel.c:800-861 -/
def clarabelSet (f : Name) (v : Val K) (o : Clarabel K) : Except Err (Clarabel K) :=
  if o.firstRun = false then .ok o
  else if f = "iter_max".toList then do let n ← v.asInt; .ok { o with maxIter := n }
  else if f = "print_level".toList then do let n ← v.asInt; .ok { o with printLevel := n }
  else if f = "tol_stat".toList then do let x ← v.asDbl; .ok { o with tolGap := x }
  else if f = "tol_eq".toList then do let x ← v.asDbl; .ok { o with tolInfeas := x }
  else if f = "tol_ineq".toList then do let x ← v.asDbl; .ok { o with tolInfeas := x }
  else if f = "tol_comp".toList then .ok o
  else if f = "warm_start".toList then .ok o
  else .error .exit

/-- `dense_qp_qpoases_opts_set`, dense_qp_qpoases.c:139-204 -/
def qpoasesSet (f : Name) (v : Val K) (o : Qpoases K) : Except Err (Qpoases K) :=
  if f = "tol_stat".toList then do let x ← v.asDbl; .ok { o with tolerance := min o.tolerance x }
  else if f = "tol_eq".toList then do let x ← v.asDbl; .ok { o with tolerance := min o.tolerance x }
  else if f = "tol_ineq".toList then do let x ← v.asDbl; .ok { o with tolerance := min o.tolerance x }
  else if f = "tol_comp".toList then do let x ← v.asDbl; .ok { o with tolerance := min o.tolerance x }
  else if f = "warm_start".toList then do
    let n ← v.asInt
    if n = 0 then .ok { o with warm := false, hot := false }
    else if n = 1 then .ok { o with warm := true, hot := false }
    else if n = 2 then .ok { o with warm := true, hot := true }
    else .error .exit
  else if f = "iter_max".toList then do let n ← v.asInt; .ok { o with maxNwsr := n }
  else if f = "print_level".toList then .ok o
  else .error .exit

/-- `dense_qp_daqp_opts_set`, dense_qp_daqp.c:115-159 -/
def daqpSet (f : Name) (v : Val K) (o : Daqp K) : Except Err (Daqp K) :=
  if f = "tol_stat".toList then .ok o
  else if f = "tol_eq".toList then .ok o
  else if f = "tol_ineq".toList then do let x ← v.asDbl; .ok { o with primalTol := x }
  else if f = "tol_comp".toList then .ok o
  else if f = "iter_max".toList then do let n ← v.asInt; .ok { o with iterLimit := n }
  else if f = "warm_start".toList then do let n ← v.asInt; .ok { o with warm := n }
  else if f = "print_level".toList then do let n ← v.asInt; .ok { o with printLevel := n }
  else .error .exit

/-- `ocp_qp_qpdunes_opts_set`, ocp_qp_qpdunes.c:222-268 -/
def qpdunesSet (f : Name) (v : Val K) (o : Qpdunes K) : Except Err (Qpdunes K) :=
  if f = "tol_stat".toList then do let x ← v.asDbl; .ok { o with stat := 1 / 10 * x }
  else if f = "tol_eq".toList then do let x ← v.asDbl; .ok { o with eq := x }
  else if f = "tol_ineq".toList then do let x ← v.asDbl; .ok { o with act := x }
  else if f = "tol_comp".toList then .ok o
  else if f = "warm_start".toList then .ok o
  else if f = "iter_max".toList then do let n ← v.asInt; .ok { o with maxIter := n }
  else if f = "print_level".toList then .ok o
  else .error .exit

/-- `ocp_qp_hpmpc_opts_set`, ocp_qp_hpmpc.c:114-156 -/
def hpmpcSet (f : Name) (v : Val K) (o : Hpmpc K) : Except Err (Hpmpc K) :=
  if f = "iter_max".toList then do let n ← v.asInt; .ok { o with maxIter := n }
  else if f = "tol_stat".toList then .ok o
  else if f = "tol_eq".toList then .ok o
  else if f = "tol_ineq".toList then .ok o
  else if f = "tol_comp".toList then do let x ← v.asDbl; .ok { o with tol := x }
  else if f = "warm_start".toList then do let n ← v.asInt; .ok { o with warm := n }
  else if f = "print_level".toList then .ok o
  else .error .exit

/-- the fields QORE and OOQP accept, dense_qp_qore.c:104-136, dense_qp_ooqp.c:351-383, ocp_qp_ooqp.c:864-896 -/
def plainFields : List Name :=
  ["tol_stat".toList, "tol_eq".toList, "tol_ineq".toList, "tol_comp".toList, "warm_start".toList,
   "print_level".toList]

/-- `qp_solver->opts_set` -/
def qpSet (E : Ext) (f : Name) (v : Val K) : Qp K → Except Err (Qp K)
  | .hpipm o => (hpipmSet E f v o).map .hpipm
  | .osqp o => (osqpSet f v o).map .osqp
  | .clarabel o => (clarabelSet f v o).map .clarabel
  | .qpoases o => (qpoasesSet f v o).map .qpoases
  | .daqp o => (daqpSet f v o).map .daqp
  | .qpdunes o => (qpdunesSet f v o).map .qpdunes
  | .hpmpc o => (hpmpcSet f v o).map .hpmpc
  | .plain => if f ∈ plainFields then .ok .plain else .error .exit

/-- what a call of the QP solver changes in its options: Clarabel builds its solver at the first call,
ocp_qp_clarabel.c:1136-1160.  (OSQP copies its settings at every call, ocp_qp_osqp.c:1742-1756.) -/
def qpCalled : Qp K → Qp K
  | .clarabel o => .clarabel { o with firstRun := false }
  | q => q

/-! ## The NLP options -/

/-- options of the condensing QP solver, ocp_qp_xcond_solver.c:282-309: the flag and the options of the QP solver -/
structure Xcond (K : Type) where
  initNext : Bool
  qp : Qp K
deriving DecidableEq

/-- `ocp_qp_xcond_solver_opts_set_`, ocp_qp_xcond_solver.c:282-309 -/
def xcondSet (E : Ext) (f : Name) (v : Val K) (x : Xcond K) : Except Err (Xcond K) :=
  if moduleOf f = some "cond".toList then
    if E.condOk (restOf f) then .ok x else .error .exit
  else if f = "initialize_next_xcond_qp_from_qp_out".toList then do
    let n ← v.asInt
    .ok { x with initNext := decide (n ≠ 0) }
  else (qpSet E f v x.qp).map fun q => { x with qp := q }

/-- the part of `ocp_nlp_opts` that concerns the QP solver; `qpIterMax` is `none` as long as nothing has written
`opts->qp_iter_max` -/
structure Nlp (K : Type) where
  tol : Four K
  tolMin : Four K
  reduction : K
  safety : K
  strategy : Int
  tauMin : K
  printLevel : Int
  qpIterMax : Option Int
  qpWarm : Int
  warmFirst : Bool
  x : Xcond K

/-- passing an option on to the QP solver -/
def Nlp.direct (E : Ext) (f : Name) (v : Val K) (s : Nlp K) : Except Err (Nlp K) :=
  (xcondSet E f v s.x).map fun x => { s with x := x }

/-- the modules with their own options, ocp_nlp_common.c:1364-1377 -/
def subModules : List Name := ["reg".toList, "qpscaling".toList, "globalization".toList]

/-- the NLP options, ocp_nlp_common.c:1378-1683; fields that concern neither tolerances, warm start, print level nor the
QP solver are taken together in `nlpOther` -/
def nlpField (E : Ext) (f : Name) (v : Val K) (s : Nlp K) : Except Err (Nlp K) :=
  if f = "nlp_qp_tol_strategy".toList then do let n ← v.asInt; .ok { s with strategy := n }
  else if f = "nlp_qp_tol_reduction_factor".toList then do let x ← v.asDbl; .ok { s with reduction := x }
  else if f = "nlp_qp_tol_safety_factor".toList then do let x ← v.asDbl; .ok { s with safety := x }
  else if f = "nlp_qp_tol_min_stat".toList then do let x ← v.asDbl; .ok { s with tolMin := { s.tolMin with stat := x } }
  else if f = "nlp_qp_tol_min_eq".toList then do let x ← v.asDbl; .ok { s with tolMin := { s.tolMin with eq := x } }
  else if f = "nlp_qp_tol_min_ineq".toList then do let x ← v.asDbl; .ok { s with tolMin := { s.tolMin with ineq := x } }
  else if f = "nlp_qp_tol_min_comp".toList then do let x ← v.asDbl; .ok { s with tolMin := { s.tolMin with comp := x } }
  else if f = "tau_min".toList then do let x ← v.asDbl; Nlp.direct E f v { s with tauMin := x }
  else if f = "print_level".toList then do
    let n ← v.asInt
    if n < 0 then .error .exit else .ok { s with printLevel := n }
  else if f = "tol_stat".toList then do
    let x ← v.asDbl
    Nlp.direct E f v { s with tol := { s.tol with stat := x } }
  else if f = "tol_eq".toList then do
    let x ← v.asDbl
    Nlp.direct E f v { s with tol := { s.tol with eq := x } }
  else if f = "tol_ineq".toList then do
    let x ← v.asDbl
    Nlp.direct E f v { s with tol := { s.tol with ineq := x } }
  else if f = "tol_comp".toList then do
    let x ← v.asDbl
    Nlp.direct E f v { s with tol := { s.tol with comp := x } }
  else if f = "warm_start_first_qp".toList then do let n ← v.asInt; .ok { s with warmFirst := decide (n ≠ 0) }
  else if E.nlpOther f then .ok s
  else .error .exit

/-- `ocp_nlp_opts_set`, ocp_nlp_common.c:1338-1687 -/
def nlpSet (E : Ext) (f : Name) (v : Val K) (s : Nlp K) : Except Err (Nlp K) :=
  if moduleOf f = some "qp".toList then do
    let s1 ← Nlp.direct E (restOf f) v s
    if f = "qp_iter_max".toList then do let n ← v.asInt; .ok { s1 with qpIterMax := some n }
    else if f = "qp_warm_start".toList then do let n ← v.asInt; .ok { s1 with qpWarm := n }
    else .ok s1
  else if (moduleOf f).getD [] ∈ subModules then
    if E.subOk ((moduleOf f).getD []) (restOf f) then .ok s else .error .exit
  else nlpField E f v s

/-- `ocp_nlp_opts_initialize_default`, ocp_nlp_common.c:1211-1294, given the default options of the QP solver -/
def nlpDefault (E : Ext) (q : Qp K) : Except Err (Nlp K) := do
  let t : K := 1 / 10 ^ 8
  let s : Nlp K :=
    { tol := ⟨t, t, t, t⟩
      tolMin := ⟨1 / 10 ^ 9, 1 / 10 ^ 10, 1 / 10 ^ 10, 1 / 10 ^ 11⟩
      reduction := 1 / 10
      safety := 1 / 10
      strategy := 0
      tauMin := 0
      printLevel := 0
      qpIterMax := none
      qpWarm := 0
      warmFirst := false
      x := ⟨false, q⟩ }
  let s ← s.direct E "tol_stat".toList (.dbl t)
  let s ← s.direct E "tol_eq".toList (.dbl t)
  let s ← s.direct E "tol_ineq".toList (.dbl t)
  s.direct E "tol_comp".toList (.dbl t)

/-- default options of the QP solvers: `..._opts_initialize_default`, ocp_qp_hpipm.c:116-129, dense_qp_hpipm.c:108-118,
dense_qp_qpoases.c:112-126, ocp_qp_osqp.c:989-1000, ocp_qp_clarabel.c:777-789, dense_qp_daqp.c:98-104,
ocp_qp_qpdunes.c:159-209, ocp_qp_hpmpc.c:91-101; what the solver libraries choose themselves is left open -/
def IsDefault (E : Ext) : Qp K → Prop
  | .hpipm o => ∃ o0 : Hpipm K, o = hpipmOverwrite { o0 with
      warm := E.modeWarm "BALANCE".toList, printLevel := 0, mRelax := 0 }
  | .osqp o => o.polish = true ∧ o.verbose = false ∧ o.warm = 1
  | .clarabel o => o.firstRun = true ∧ o.printLevel = 0
  | .qpoases o => o = ⟨1 / 10 ^ 4, true, false, 1000⟩
  | .daqp o => o.warm = 1
  | .qpdunes o => o.stat = 1 / 10 ^ 6 ∧ o.maxIter = 1000
  | .hpmpc o => o = ⟨1 / 10 ^ 8, 100, 0⟩
  | .plain => True

/-! ## Solves -/

/-- data a QP solve reads: the residuals of the NLP and the scaling factors -/
structure QpData (K : Type) where
  first : Bool
  res : Four K
  objFac : K
  minScal : K

/-- setting the four tolerances of the QP solver, ocp_nlp_common.c:4478-4485, 4503-4510 -/
def setTols (E : Ext) (t : Four K) (s : Nlp K) : Except Err (Nlp K) := do
  let s ← s.direct E "tol_stat".toList (.dbl t.stat)
  let s ← s.direct E "tol_eq".toList (.dbl t.eq)
  let s ← s.direct E "tol_ineq".toList (.dbl t.ineq)
  s.direct E "tol_comp".toList (.dbl t.comp)

/-- the options of the NLP that enter the tolerances -/
def Nlp.tolOpts (s : Nlp K) : TolOpts K := ⟨s.reduction, s.safety, s.tol, s.tolMin⟩

/-- no warm start of the first QP of a solve, ocp_nlp_sqp.c:660-667; the other algorithms have the same lines;
initialisation from the NLP (lines 668-673) is left out -/
def coldFirst (E : Ext) (d : QpData K) (s : Nlp K) : Except Err (Nlp K) :=
  if d.first && !s.warmFirst then s.direct E "warm_start".toList (.int 0) else .ok s

/-- tolerances of the QP solver, ocp_nlp_common.c:4456-4512 -/
def adaptTols (E : Ext) (d : QpData K) (s : Nlp K) : Except Err (Nlp K) :=
  if s.strategy = 1 then setTols E (tolJoint s.tolOpts d.res) s
  else if s.strategy = 2 then setTols E (tolScaling s.tolOpts d.objFac d.minScal) s
  else .ok s

/-- options when the QP solver is called -/
def qpUsed (E : Ext) (d : QpData K) (s : Nlp K) : Except Err (Nlp K) := (coldFirst E d s).bind (adaptTols E d)

/-- one QP solve: the options are prepared, the QP solver is called, the warm start is restored
(ocp_nlp_sqp.c:687-691), and the flag of the condensing solver is cleared (ocp_qp_xcond_solver.c:554-558) -/
def qpStep (E : Ext) (d : QpData K) (s : Nlp K) : Except Err (Nlp K) := do
  let s ← qpUsed E d s
  let s := { s with x := ⟨false, qpCalled s.x.qp⟩ }
  if d.first then s.direct E "warm_start".toList (.int s.qpWarm) else .ok s

/-- the option write at the start of a solve, ocp_nlp_sqp.c:504-510 (and ocp_nlp_sqp_rti.c:480, 817,
ocp_nlp_ddp.c:582, ocp_nlp_sqp_with_feasible_qp.c:966) -/
def start (E : Ext) (s : Nlp K) : Except Err (Nlp K) :=
  s.direct E "print_level".toList (.int (if 2 < s.printLevel then 1 else 0))

/-- what can happen to the options: an option call, the start of a solve, one QP solve within it -/
inductive Ev (K : Type)
  | set (f : Name) (v : Val K)
  | start
  | qp (d : QpData K)

/-- one event -/
def step (E : Ext) (e : Ev K) (s : Nlp K) : Except Err (Nlp K) :=
  match e with
  | .set f v => nlpSet E f v s
  | .start => start E s
  | .qp d => qpStep E d s

/-- a history of events -/
def run (E : Ext) : List (Ev K) → Nlp K → Except Err (Nlp K)
  | [], s => .ok s
  | e :: es, s => do let s ← step E e s; run E es s

/-! ## The generated solver -/

/-- options of the description that the template passes to the QP solver; `rti` for `SQP_RTI`, whose NLP tolerances are
not set; `qpTol` are the optional QP tolerances -/
structure Desc (K : Type) where
  hpipm : Bool
  rti : Bool
  mode : Name
  tauMin : K
  nlpTol : Four K
  strategy : Int
  iterMax : Int
  qpTol : Four (Option K)
  warm : Int
  printLevel : Int

/-- an optional call -/
def optSet (f : Name) (o : Option K) : List (Ev K) :=
  match o with
  | some x => [.set f (.dbl x)]
  | none => []

/-- the option calls of the generated code in their order, acados_solver.in.c:2761-2922; calls of other options are
left out (`qp_mu0`, `qp_t0_init`, `qp_ric_alg` and `qp_cond_*` do not touch the values modelled) -/
def generated (d : Desc K) : List (Ev K) :=
  (if d.hpipm then [.set "qp_hpipm_mode".toList (.str d.mode)] else [])
  ++ (if 0 < d.tauMin then [.set "tau_min".toList (.dbl d.tauMin)] else [])
  ++ (if d.rti then []
      else [.set "tol_stat".toList (.dbl d.nlpTol.stat), .set "tol_eq".toList (.dbl d.nlpTol.eq),
            .set "tol_ineq".toList (.dbl d.nlpTol.ineq), .set "tol_comp".toList (.dbl d.nlpTol.comp),
            .set "nlp_qp_tol_strategy".toList (.int d.strategy)])
  ++ [.set "qp_iter_max".toList (.int d.iterMax)]
  ++ optSet "qp_tol_stat".toList d.qpTol.stat
  ++ optSet "qp_tol_eq".toList d.qpTol.eq
  ++ optSet "qp_tol_ineq".toList d.qpTol.ineq
  ++ optSet "qp_tol_comp".toList d.qpTol.comp
  ++ (if d.warm ≠ 0 then [.set "qp_warm_start".toList (.int d.warm)] else [])
  ++ [.set "print_level".toList (.int d.printLevel)]

end

end Acados.QpOpts
