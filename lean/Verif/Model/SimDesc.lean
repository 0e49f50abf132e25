import Verif.Spec.SimDesc

/-!
# Descriptions of integrators

`interfaces/acados_template/acados_template/acados_sim.py`: `make_consistent`, `from_ocp`;
`acados_model.py`: `make_consistent`; `acados_code_gen_options.py`: `make_consistent`;
`acados_sim_solver.py`: `generate`, `__init__`.

`none` is an exception. Not modelled: validity of CasADi symbols, files of the library, options of
CasADi, the structure detection of GNSF, Simulink and ROS.
-/

namespace Acados.SimDesc

section
variable {K : Type*}

/-- `AcadosModel.make_consistent` for `AcadosSimDims`, acados_model.py:877-952: the checks at lines
882, 887-891, 938-940, 945-950. -/
def Model.check (m : Model) : Option Model :=
  if m.x = 0 then none
  else if m.xdot ≠ 0 ∧ m.xdot ≠ m.x then none
  else if m.pGlobal ≠ 0 then none
  else if m.fImpl ≠ 0 ∧ m.fImpl ≠ m.x + m.z then none
  else if m.fExpl ≠ 0 ∧ m.fExpl ≠ m.x then none
  else some { m with xdot := m.x }

/-- One deprecated option, acados_sim.py:498-506: the new value, and whether there is a warning. -/
def transfer {α : Type*} [DecidableEq α] (default old new : α) : α × Bool :=
  if old ≠ default then if new = default then (old, false) else (new, true) else (new, false)

/-- The deprecated option `sens_forw_p`: the setter at acados_sim.py:172-177 accepts values that are
equal to a `bool`, the one at acados_code_gen_options.py:347-352 accepts `bool` only. -/
def transferSens (old : Truth) (new : Bool) : Option (Bool × Bool) :=
  if old.val ≠ false then
    if new = false then if old.isBool then some (old.val, false) else none else some (new, true)
  else some (new, false)

/-- Fields with a warning, in the order of acados_sim.py:493. -/
def warnings (a b c : Bool) : List Fd :=
  (if a then [.flags] else []) ++ (if b then [.expand] else []) ++ (if c then [.sensP] else [])

/-- `AcadosCodeGenOptions.make_consistent`, acados_code_gen_options.py:373-385; only the last part of
the path of `json_file` matters. -/
def Gen.paths (cwd id : String) (g : Gen) : Gen :=
  { g with
    dir := some (g.dir.getD (cwd ++ "/codegen_" ++ id))
    json := some (g.json.getD (id ++ ".json")) }

/-- `AcadosSim.make_consistent`, acados_sim.py:473-513. `env` is the default of the compile flags
(acados_code_gen_options.py:62), `H` the hash of model and options (acados_sim.py:516-522; dimensions
are those of the model), `cwd` the working directory. -/
def consistent (env cwd : String) (H : Model → Opts K → String) (s : Sim K) :
    Option (Sim K × List Fd) :=
  match s.model.check with
  | none => none
  | some m =>
    if s.shape.head? ≠ some m.p then none
    else if s.opts.T.isNone then none
    else if s.gen.sensP = true ∧ s.opts.integ = .gnsf then none
    else if s.opts.integ = .erk ∧ m.fExpl = 0 then none
    else if s.opts.integ ≠ .erk ∧ m.fImpl = 0 then none
    else
      let a := transfer env s.opts.flags s.gen.flags
      let b := transfer false s.opts.expand s.gen.expand
      match transferSens s.opts.sensP s.gen.sensP with
      | none => none
      | some c =>
        let name := s.name.getD ("sim_" ++ m.name ++ "_" ++ H m s.opts)
        let g : Gen := { s.gen with flags := a.1, expand := b.1, sensP := c.1, hess := s.opts.sensHess }
        some ({ s with model := m, gen := g.paths cwd name, name := some name },
          warnings a.2 b.2 c.2)

/-- `AcadosSimSolver.generate`, acados_sim_solver.py:95-128: the description the code is generated
for. -/
def generate (env cwd : String) (H : Model → Opts K → String) (s : Sim K) : Option (Sim K) :=
  match consistent env cwd H s with
  | none => none
  | some (s', _) =>
    if s'.opts.integ = .gnsf ∧ s'.opts.sensHess = true then none else some s'

/-- `AcadosSimSolver.__init__` with `generate=True`, acados_sim_solver.py:181-216. -/
def create (env cwd : String) (H : Model → Opts K → String) (s : Sim K) : Option (Sim K) :=
  match consistent env cwd H s with
  | none => none
  | some (s', _) => generate env cwd H s'

/-- The file a description is written to, acados_sim.py:540-549 and acados_ocp.py:1608-1620. -/
def Gen.file (g : Gen) : Option (String × String) :=
  match g.dir, g.json with
  | some d, some j => some (d, j)
  | _, _ => none

/-- `AcadosSim.from_ocp`, acados_sim.py:697-732; defaults as in acados_sim.py:60-85. -/
def fromOcp (env : String) (o : Ocp K) : Option (Sim K) :=
  match o.integ, o.timeSteps.head?, o.numStages.head?, o.numSteps.head? with
  | some i, some t, some ns, some nt =>
    some
      { model := { o.model with p := o.model.p + o.model.pGlobal, pGlobal := 0 }
        opts :=
          { integ := i, T := some t, numStages := ns, numSteps := nt, sensHess := false, flags := env
            expand := false, sensP := ⟨false, true⟩ }
        gen := o.gen
        shape := [(o.params ++ o.globals).length]
        values := o.params ++ o.globals
        name := none }
  | _, _, _, _ => none

end

end Acados.SimDesc
