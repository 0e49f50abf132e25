import Verif.Spec.SensOpts
import Mathlib.Data.List.Range

/-!
# Options for parametric sensitivities of an OCP

`interfaces/acados_template/acados_template/acados_ocp.py`: the parts of `AcadosOcp.make_consistent`
about sensitivities, `ensure_solution_sensitivities_available`; `acados_code_gen_options.py`:
`with_solution_sens_wrt_params`; `acados_ocp_solver.py`: which functions of the library
`eval_solution_sensitivity`, `eval_adjoint_solution_sensitivity`,
`eval_and_get_optimal_value_gradient` call for `p_global`; in `acados/ocp_nlp`: which functions of the
modules exist.

Not modelled: the other checks of `make_consistent`, checks of stages and seeds, several phases,
values of the sensitivities (ParamSens), sizes of constraints.
-/

namespace Acados.SensOpts

/-- One deprecated option, acados_ocp.py:1128-1136: the new value, and whether there is a warning; the
default of all options here is `False` (acados_code_gen_options.py:70-76). -/
def transfer (old new : Bool) : Bool × Bool :=
  if old ≠ false then if new = false then (old, false) else (new, true) else (new, false)

/-- The transfer of `with_solution_sens_wrt_params`: the getter at acados_code_gen_options.py:256-270
returns the forward option, the setter at lines 272-284 sets both. -/
def transferSol (old : Bool) (g : Gen) : Gen × Bool :=
  if old ≠ false then
    if g.forw = false then ({ g with forw := old, adj := old }, false) else (g, true)
  else (g, false)

/-- acados_ocp.py:1111-1136, the options of sensitivities: the new options and the number of warnings. -/
def transferAll (o : Ocp) : Gen × ℕ :=
  let a := transferSol o.oldSol o.gen
  let b := transfer o.oldVal a.1.val
  let c := transfer o.oldSensP a.1.sensP
  ({ a.1 with val := b.1, sensP := c.1 }, a.2.toNat + b.2.toNat + c.2.toNat)

/-- `cost_types_to_check`, acados_ocp.py:1263-1276. -/
def costsToCheck (o : Ocp) : List Cost :=
  if o.N > 0 then [o.cost, o.cost0, o.costE] else [o.costE]

/-- `bgp_type_constraint_pairs`, acados_ocp.py:1263-1276. -/
def constrsToCheck (o : Ocp) : List Constr :=
  if o.N > 0 then [o.constr, o.constr0, o.constrE] else [o.constrE]

/-- The four checks that both options have in common, acados_ocp.py:1278-1288 and 1292-1301. -/
def sensCheck (o : Ocp) : Bool :=
  if o.npGlobal = 0 then false
  else if (costsToCheck o).any (fun c => c ≠ .external ∧ c ≠ .linearLs) then false
  else if o.N > 0 ∧ o.integ ≠ .discrete then false
  else if (constrsToCheck o).any (fun c => c = .bgp true) then false
  else true

/-- `AcadosOcp.make_consistent`, acados_ocp.py:1083-1301, the parts about sensitivities: transfer of
deprecated options, `_make_consistent_simulation` (lines 1027-1036), condensing horizon (lines
1251-1254), checks of sensitivities; `none` is an exception. The checks read the deprecated options.
The number is that of warnings. -/
def consistent (o : Ocp) : Option (Ocp × ℕ) :=
  let t := transferAll o
  let o1 : Ocp := { o with gen := t.1 }
  if o1.N ≠ 0 ∧ o1.gen.sensP = true ∧ o1.integ ≠ .erk ∧ o1.integ ≠ .irk then none
  else
    let n := o1.condN.getD o1.N
    let o2 : Ocp := { o1 with condN := some n }
    if n > o2.N then none
    else if o2.oldSol = true ∧ (sensCheck o2 = false ∨ o2.qp = .other) then none
    else if o2.oldVal = true ∧ sensCheck o2 = false then none
    else some (o2, t.2)

/-- `ensure_solution_sensitivities_available` after its first lines, acados_ocp.py:2575-2621; `true`: no
exception. -/
def ensureCore (parametric forward : Bool) (o : Ocp) (n : ℕ) : Bool :=
  if o.qp = .other then false
  else if parametric = true ∧ forward = true ∧ o.gen.forw = false then false
  else if parametric = true ∧ forward = false ∧ o.gen.adj = false then false
  else if o.scaled = true then false
  else if o.exactHess = false then false
  else if (o.qp = .fullHpipm ∧ o.N > 0) ∨ n < o.N then false
  else if (n ≠ o.N ∨ (o.qp = .fullHpipm ∧ o.N > 0)) ∧ o.condRicAlg = true then false
  else if o.ricAlg = true then false
  else true

/-- `ensure_solution_sensitivities_available`, acados_ocp.py:2562-2621: the description is made
consistent first if its condensing horizon is not set. -/
def ensure (parametric forward : Bool) (o : Ocp) : Bool :=
  match o.condN with
  | some n => ensureCore parametric forward o n
  | none =>
    match consistent o with
    | none => false
    | some (o', _) => ensureCore parametric forward o' (o'.condN.getD 0)

/-- Module of the cost at stage `i`, as set by the generated code. -/
def costAt (o : Ocp) (i : ℕ) : Cost := if i = o.N then o.costE else if i = 0 then o.cost0 else o.cost

/-- Module of the constraints at stage `i`, as set by the generated code. -/
def constrAt (o : Ocp) (i : ℕ) : Constr :=
  if i = o.N then o.constrE else if i = 0 then o.constr0 else o.constr

/-- `compute_jac_hess_p`, `compute_adj_sol_sens_pdiff` and `compute_adj_p` of the dynamics do not end
the process: ocp_nlp_dynamics_cont.c:1107-1123 do, ocp_nlp_dynamics_disc.c do not. -/
def dynHas (i : Integ) : Bool := i = .discrete

/-- `compute_jac_p` and `eval_grad_p` of the cost: ocp_nlp_cost_nls.c:1148-1159 and
ocp_nlp_cost_conl.c:1059-1070 end the process. -/
def costHas (c : Cost) : Bool := c = .external ∨ c = .linearLs

/-- `compute_adj_sol_sens_pdiff` of the cost: ocp_nlp_cost_ls.c:1116-1121, ocp_nlp_cost_nls.c:1141-1146
and ocp_nlp_cost_conl.c:1052-1057 end the process. -/
def costHasAdj (c : Cost) : Bool := c = .external

/-- `compute_jac_hess_p`, `compute_adj_p`, `compute_adj_sol_sens_pdiff` of the constraints:
ocp_nlp_constraints_bgp.c:1533-1546, 1597-1602 end the process. -/
def constrHas (c : Constr) : Bool := c = .bgh

/-- `ocp_nlp_params_jac_compute`, ocp_nlp_common.c:3988-4036: `true` if the process goes on. -/
def jacStages (o : Ocp) : Bool :=
  (List.range (o.N + 1)).all fun i =>
    (if i < o.N then dynHas o.integ else true) && costHas (costAt o i) && constrHas (constrAt o i)

/-- `ocp_nlp_common_eval_solution_sens_adj_p`, ocp_nlp_common.c:4148-4170. -/
def adjStages (o : Ocp) : Bool :=
  (List.range (o.N + 1)).all fun i =>
    costHasAdj (costAt o i) && (if i < o.N then dynHas o.integ else true) && constrHas (constrAt o i)

/-- `ocp_nlp_common_eval_lagr_grad_p`, ocp_nlp_common.c:4194-4216: the stages before the last. -/
def gradStages (o : Ocp) : Bool :=
  (List.range o.N).all fun i =>
    dynHas o.integ && costHas (costAt o i) && constrHas (constrAt o i)

/-- `eval_solution_sensitivity` for `p_global`, acados_ocp_solver.py:945-955; ocp_nlp_common.c:3995. -/
def evalForward (checks : Bool) (o : Ocp) : Outcome :=
  if checks = true ∧ ensure true true o = false then .raises
  else if o.gen.forw = false then .exits
  else if jacStages o then .computes else .exits

/-- `eval_adjoint_solution_sensitivity` for `p_global`, acados_ocp_solver.py:1084-1120;
ocp_nlp_common.c:4115. -/
def evalAdjoint (checks : Bool) (o : Ocp) : Outcome :=
  if checks = true ∧ ensure true false o = false then .raises
  else if o.gen.adj = false then .exits
  else if adjStages o then .computes else .exits

/-- `eval_and_get_optimal_value_gradient` for `p_global`, acados_ocp_solver.py:801-809: no checks. If
the functions were not generated, the discrete dynamics end the process
(ocp_nlp_dynamics_disc.c:981), the external cost calls a function that does not exist
(ocp_nlp_cost_external.c:1167). -/
def evalValue (o : Ocp) : Outcome :=
  if o.gen.val = false ∧ 0 < o.N then .exits
  else if gradStages o = false then .exits
  else if costHas (costAt o o.N) = false then .exits
  else if o.gen.val = false ∧ costAt o o.N = .external then .undefined
  else .computes

end Acados.SensOpts
