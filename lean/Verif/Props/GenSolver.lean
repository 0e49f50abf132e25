import Verif.Lemmas.GenLife
/-!
# C81: the life of a generated solver

Creation, new time steps, reset: the numbers in the solver are those of the description.
-/
namespace Acados.GenSolver
variable {K : Type} [Zero K] [One K] [DecidableEq K]

/-- the problem data of a solver with `N` stages say what the description says, apart from time steps and scaling -/
structure Described (d : Desc K) (N : Nat) (s : In K) : Prop where
  fld : ∀ i ≤ N, ∀ f v, d.value (kindOf N i) f = some v → s.fld i f = some v
  p : ∀ i ≤ N, ∀ j < d.np, s.p i j = d.p j
  global : 0 < d.npGlobal → 0 < d.nGlobalData → s.globalData = d.pre ((List.range d.npGlobal).map d.pGlobal)

/-- time steps and cost scaling of the description -/
structure DescribedSteps (d : Desc K) (s : In K) : Prop where
  ts : ∀ i < d.N, s.ts i = d.timeSteps i
  scaling : ∀ i ≤ d.N, s.scaling i = d.costScaling i

omit [One K] in
theorem described_of {d : Desc K} (ok : d.Ok) {N : Nat} (hN : 0 < N ↔ 0 < d.N) {s : In K} (fld0 : Nat → Fld → Option (Val K))
    (p0 : Nat → Nat → K) (g0 : List K)
    (hf : s.fld = (blocks d N).foldl runBlock fld0)
    (hp : s.p = fun i j => if i < N + 1 ∧ j < d.np then d.p j else p0 i j)
    (hg : s.globalData = if 0 < d.npGlobal ∧ 0 < d.nGlobalData then d.pre ((List.range d.npGlobal).map d.pGlobal) else g0) :
    Described d N s := by
  refine ⟨fun i hi f v hv => ?_, fun i hi j hj => ?_, fun h1 h2 => ?_⟩
  · rw [hf, blocks_value d ok N i hN hi, hv]; rfl
  · rw [hp]; simp only; rw [if_pos ⟨by omega, hj⟩]
  · rw [hg, if_pos ⟨h1, h2⟩]

/-- **C81**: creation succeeds; the time steps, the cost scaling, every field of every stage, and the parameters are those
of the description; fields without a description are not set; the initial guess is `x0` for the states, if all states of
the first stage are bounded, and zero for the rest. -/
theorem C81_create (d : Desc K) (ok : d.Ok) :
    ∃ c, create d d.N none = .ok c ∧ c.N = d.N ∧ DescribedSteps d c.inp ∧ Described d d.N c.inp ∧
      (∀ i ≤ d.N, ∀ f, d.value (kindOf d.N i) f = none → c.inp.fld i f = none) ∧
      (∀ i ≤ d.N, ∀ j < d.nx, c.out.x i j = if d.nbx .init = d.nx ∧ 0 < d.N then d.vec .init .lbx j else 0) := by
  refine ⟨_, create_none d, rfl, ⟨fun i hi => ?_, fun i hi => ?_⟩, ?_, fun i hi f hf => ?_, fun i hi j hj => ?_⟩
  · simp only; rw [if_pos hi]
  · simp only; rw [if_pos (by omega)]
  · exact described_of ok Iff.rfl _ _ _ rfl rfl rfl
  · simp only; rw [blocks_value d ok d.N i Iff.rfl hi, hf]; rfl
  · exact setNlpOut_N d d.N i j hi hj

/-- **C81**: creation with another number of stages and new time steps: the new steps are also the cost scaling,
except for the last stage, which has scaling one; everything else is described as before. -/
theorem C81_create_steps (d : Desc K) (ok : d.Ok) (hd : 0 < d.N) (N : Nat) (hN : 0 < N) (ts : Nat → K) :
    ∃ c, create d N (some ts) = .ok c ∧ c.N = N ∧ (∀ i < N, c.inp.ts i = ts i ∧ c.inp.scaling i = ts i) ∧
      c.inp.scaling N = 1 ∧ Described d N c.inp ∧
      (∀ i ≤ N, ∀ j < d.nx, c.out.x i j = if d.nbx .init = d.nx ∧ 0 < d.N then d.vec .init .lbx j else 0) := by
  refine ⟨_, create_some d hd N ts, rfl, fun i hi => ⟨?_, ?_⟩, ?_, ?_, fun i hi j hj => ?_⟩
  · simp only; rw [if_pos hi]
  · simp only; rw [if_pos hi]
  · simp only; rw [if_neg (by omega)]
  · exact described_of ok ⟨fun _ => hd, fun _ => hN⟩ _ _ _ rfl rfl rfl
  · exact setNlpOut_N d N i j hi hj

/-- **C81**: what is refused.  Another number of stages without time steps; new time steps of the wrong number (the solver
is unchanged); parameters of the wrong number, or numerical values for another number of stages than the capsule has, end
the process. -/
theorem C81_refuses (d : Desc K) (N : Nat) :
    (N ≠ d.N → create d N none = .refused) ∧
    (∀ (c : Capsule K) (ts : Nat → K), 0 < d.N → N ≠ c.N → updateSteps d c.N N ts c.inp = .refused ∧
      step d c (.timeSteps N ts) = .ok c) ∧
    (∀ (s : In K) (i : Nat) (p : Nat → K), N ≠ d.np → updateParams d i p N s = .exit) ∧
    (∀ (s : In K) (capN : Nat) (ts : Option (Nat → K)), N ≠ capN → setup d capN N ts s = .exit) := by
  refine ⟨fun h => ?_, fun c ts hd h => ?_, fun s i p h => ?_, fun s capN ts h => ?_⟩
  · unfold create; rw [if_pos ⟨h, rfl⟩]
  · have e : updateSteps d c.N N ts c.inp = .refused := by
      unfold updateSteps; rw [if_neg (by omega), if_pos h]
    exact ⟨e, by simp only [step]; rw [e]⟩
  · unfold updateParams; rw [if_pos (fun e => h e.symm)]
  · unfold setup; rw [if_pos h]

/-- **C81**: with the number of stages of the description, no history of calls has undefined behaviour (it may end the
process, if the number of global parameters is wrong). -/
theorem C81_no_ub (d : Desc K) (c : Capsule K) (hc : create d d.N none = .ok c) (ops : List (Op K)) :
    run d c ops ≠ .ub ∧ run d c ops ≠ .refused := by
  have hN : c.N = d.N := by
    rw [create_none] at hc; simp only [Res.ok.injEq] at hc; rw [← hc]
  induction ops using List.reverseRecOn with
  | nil => simp [run]
  | append_singleton ops o ih =>
    rw [run_snoc]
    cases hr : run d c ops with
    | ok c' => exact step_no_ub d c' ((run_N d c c' ops hr).trans hN) o
    | refused => exact absurd hr ih.2
    | exit => simp [Res.bind]
    | ub => exact absurd hr ih.1

/-- **C81** (partial: the solver was created with the number of stages of the description, see
`C81_reset_stages_false`; the initial guess of creation needs the flag, see `C81_reset_x_false`): after any history of
calls, a reset with numerical values brings back the time steps, the cost scaling, every field of every stage and the
parameters of the description.  With the flag for the initial state the states are `x0` again. -/
theorem C81_reset_partial (d : Desc K) (ok : d.Ok) (c c' : Capsule K) (hc : create d d.N none = .ok c)
    (ops : List (Op K)) (hr : run d c ops = .ok c') (x0 : Bool) :
    ∃ c'', reset d true x0 c' = .ok c'' ∧ c''.N = d.N ∧ DescribedSteps d c''.inp ∧ Described d d.N c''.inp ∧
      (∀ i ≤ d.N, ∀ f, d.value (kindOf d.N i) f = none → c''.inp.fld i f = c'.inp.fld i f) ∧
      (x0 = true → d.hasX0 = true → 0 < d.N → ∀ i ≤ d.N, ∀ j < d.nx, c''.out.x i j = d.vec .init .lbx j) := by
  have hN : c.N = d.N := by
    rw [create_none] at hc; simp only [Res.ok.injEq] at hc; rw [← hc]
  obtain ⟨s, e, hs⟩ := reset_num d x0 c' ((run_N d c c' ops hr).trans hN)
  have hD : Described d d.N s := described_of ok Iff.rfl c'.inp.fld c'.inp.p c'.inp.globalData (by rw [hs]) (by rw [hs]) (by rw [hs])
  refine ⟨_, e, rfl, ⟨fun i hi => ?_, fun i hi => ?_⟩, hD, fun i hi f hf => ?_, fun h1 h2 h3 i hi j hj => ?_⟩
  · simp only [hs]; rw [if_pos hi]
  · simp only [hs]; rw [if_pos (by omega)]
  · simp only [hs]; rw [blocks_value d ok d.N i Iff.rfl hi, hf]; rfl
  · have hx : s.fld 0 .lbx = some (d.vecVal .init .lbx (d.nbx .init)) := by
      refine hD.fld 0 (by omega) .lbx _ ?_
      have ek : kindOf d.N 0 = .init := by unfold kindOf; rw [if_neg (by omega), if_pos rfl]
      rw [ek]
      simp only [Desc.value]
      rw [if_neg (by rw [ok.x0 h2]; omega)]
    simp only [resetIter, h1, h2, Bool.and_self, if_true]
    rw [rows_fold (d.N + 1) d.nx (x0Buffer s) _ i j (by omega) hj]
    unfold x0Buffer
    rw [hx]
    simp only [Desc.vecVal]
    have hl : j < d.nbx .init := by rw [ok.x0 h2]; exact hj
    rw [List.getD_eq_getElem _ _ (by simpa using hl)]
    simp

/-- **C81**, negation: a solver that was created with another number of stages than at code generation
(`create_with_discretization`, or `set_new_time_steps` of another length) has undefined behaviour in every reset with
numerical values: the buffer of the cost scaling has the length of the new horizon and is filled with the numbers of the
old one. -/
theorem C81_reset_stages_false (d : Desc K) (hd : 0 < d.N) (N : Nat) (hN : N ≠ d.N) (ts : Nat → K) (c c' : Capsule K)
    (hc : create d N (some ts) = .ok c) (ops : List (Op K)) (hr : run d c ops = .ok c') (x0 : Bool) :
    reset d true x0 c' = .ub := by
  have e : c.N = N := by
    rw [create_some d hd] at hc; simp only [Res.ok.injEq] at hc; rw [← hc]
  exact reset_ub d x0 c' (by rw [run_N d c c' ops hr, e]; exact hN)

/-- **C81**, negation: without the flag, a reset does not give the initial guess of creation back: all states are zero. -/
theorem C81_reset_x_false (d : Desc K) (nm : Bool) (c c' : Capsule K) (h : reset d nm false c = .ok c') (i j : Nat) :
    c'.out.x i j = 0 := by
  unfold reset at h
  simp only at h
  obtain ⟨s, -, e⟩ := bind_ok _ _ _ h
  simp only [Bool.false_and, Bool.false_eq_true, if_false, Res.ok.injEq] at e
  rw [← e]; rfl

/-- **C81**, negation: new time steps overwrite the cost scaling of the stages before the last, also if the description
has a cost scaling of its own, and a new length resets the scaling of the terminal cost to one. -/
theorem C81_scaling_false (d : Desc K) (hd : 0 < d.N) (py : Py K) (new : List K) (py' : Py K)
    (hne : py.steps ≠ new) (h : setNewTimeSteps d py new = .ok py') :
    (∀ i < new.length, py'.cap.inp.scaling i = new.getD i 0) ∧
    (py.steps.length ≠ new.length → py'.cap.inp.scaling new.length = 1) := by
  unfold setNewTimeSteps at h
  rw [if_neg hne] at h
  by_cases hl : py.steps.length = new.length
  · rw [if_pos hl] at h
    refine ⟨fun i hi => ?_, fun hn => absurd hl hn⟩
    obtain ⟨s, e1, e2⟩ := bind_ok _ _ _ h
    simp only [Res.ok.injEq] at e2
    rw [← e2]
    simp only [updateSteps] at e1
    rw [if_neg (by omega)] at e1
    split_ifs at e1 with h1
    simp only [Res.ok.injEq] at e1
    rw [← e1, setSteps_eq]
    simp only; rw [if_pos hi]
  · rw [if_neg hl] at h
    rw [create_some d hd] at h
    simp only [Res.bind, Res.ok.injEq] at h
    rw [← h]
    refine ⟨fun i hi => ?_, fun _ => ?_⟩
    · simp only; rw [if_pos hi]
    · simp only; rw [if_neg (by omega)]

/-! ### `set_new_time_steps` -/

/-- calls that keep the record of the Python object in step with the solver: no reset with numerical values, no direct
use of the C function for the time steps -/
def Tame : PyOp K → Prop
  | .newSteps _ => True
  | .other (.reset true _) => False
  | .other (.timeSteps _ _) => False
  | .other _ => True

/-- the record agrees with the solver -/
def Agrees (py : Py K) : Prop := py.steps.length = py.cap.N ∧ ∀ i < py.cap.N, py.cap.inp.ts i = py.steps.getD i 0

theorem newSteps_agrees (d : Desc K) (hd : 0 < d.N) (py py' : Py K) (new : List K) (ha : Agrees py)
    (h : setNewTimeSteps d py new = .ok py') : Agrees py' ∧ py'.steps = new := by
  unfold setNewTimeSteps at h
  by_cases hne : py.steps = new
  · rw [if_pos hne] at h
    simp only [Res.ok.injEq] at h
    exact h ▸ ⟨ha, hne⟩
  rw [if_neg hne] at h
  by_cases hl : py.steps.length = new.length
  · rw [if_pos hl] at h
    obtain ⟨s, e1, e2⟩ := bind_ok _ _ _ h
    simp only [Res.ok.injEq] at e2
    simp only [updateSteps] at e1
    rw [if_neg (by omega), if_neg (by rw [← hl, ha.1]; simp)] at e1
    simp only [Res.ok.injEq] at e1
    rw [← e2]
    refine ⟨⟨by simp only; rw [← hl]; exact ha.1, fun i hi => ?_⟩, rfl⟩
    simp only at hi ⊢
    rw [← e1, setSteps_eq]
    simp only; rw [if_pos (by rw [← hl, ha.1]; exact hi)]
  · rw [if_neg hl, create_some d hd] at h
    simp only [Res.bind, Res.ok.injEq] at h
    rw [← h]
    refine ⟨⟨rfl, fun i hi => ?_⟩, rfl⟩
    simp only at hi ⊢
    rw [if_pos hi]

theorem step_agrees (d : Desc K) (py py' : Py K) (o : Op K) (ha : Agrees py) (ht : Tame (.other o : PyOp K))
    (h : pyStep d py (.other o) = .ok py') : Agrees py' := by
  simp only [pyStep] at h
  obtain ⟨c, e1, e2⟩ := bind_ok _ _ _ h
  simp only [Res.ok.injEq] at e2
  rw [← e2]
  have key : c.N = py.cap.N ∧ c.inp.ts = py.cap.inp.ts := by
    refine ⟨step_N d _ _ _ e1, ?_⟩
    cases o with
    | set i f v => simp only [step, Res.ok.injEq] at e1; rw [← e1]
    | setScaling i v => simp only [step, Res.ok.injEq] at e1; rw [← e1]; rfl
    | timeSteps N ts => exact ht.elim
    | params i p =>
      simp only [step, updateParams] at e1
      rw [if_neg (by simp)] at e1
      simp only [Res.bind, Res.ok.injEq] at e1; rw [← e1]
    | pGlobal data =>
      simp only [step, setPGlobal] at e1
      split_ifs at e1 with h1 h2
      · cases e1
      · simp only [Res.bind, Res.ok.injEq] at e1; rw [← e1]
      · simp only [Res.bind, Res.ok.injEq] at e1; rw [← e1]
    | iterate o => simp only [step, Res.ok.injEq] at e1; rw [← e1]
    | reset nm x0 =>
      cases nm with
      | true => exact ht.elim
      | false => simp only [step, reset_soft, Res.ok.injEq] at e1; rw [← e1]
  exact ⟨by simp only; rw [key.1]; exact ha.1, fun i hi => by simp only at hi ⊢; rw [key.2]; exact ha.2 i (by rw [← key.1]; exact hi)⟩

theorem pyRun_snoc (d : Desc K) (py : Py K) (ops : List (PyOp K)) (o : PyOp K) :
    pyRun d py (ops ++ [o]) = (pyRun d py ops).bind (fun p => pyStep d p o) := by
  unfold pyRun; rw [List.foldl_append]; rfl

theorem pyRun_agrees (d : Desc K) (hd : 0 < d.N) (py py' : Py K) (ops : List (PyOp K)) (ha : Agrees py)
    (ht : ∀ o ∈ ops, Tame o) (h : pyRun d py ops = .ok py') : Agrees py' := by
  induction ops using List.reverseRecOn generalizing py' with
  | nil => simp only [pyRun, List.foldl_nil, Res.ok.injEq] at h; exact h ▸ ha
  | append_singleton ops o ih =>
    rw [pyRun_snoc] at h
    obtain ⟨p1, e1, e2⟩ := bind_ok _ _ _ h
    have h1 := ih p1 (fun o ho => ht o (by simp [ho])) e1
    cases o with
    | newSteps new => exact (newSteps_agrees d hd p1 py' new h1 e2).1
    | other o => exact step_agrees d p1 py' o h1 (ht _ (by simp)) e2

/-- the Python object after its construction -/
def pyNew (d : Desc K) (c : Capsule K) : Py K := ⟨c, (List.range d.N).map d.timeSteps⟩

/-- **C81** (partial: the history has no reset with numerical values, see `C81_new_steps_stale_false`): after any history,
`set_new_time_steps` succeeds for every non-empty list, and the solver has as many stages as the list has entries,
with these time steps. -/
theorem C81_new_steps_partial (d : Desc K) (hd : 0 < d.N) (c : Capsule K) (hc : create d d.N none = .ok c)
    (ops : List (PyOp K)) (ht : ∀ o ∈ ops, Tame o) (py : Py K) (h : pyRun d (pyNew d c) ops = .ok py) (new : List K) :
    ∃ py', setNewTimeSteps d py new = .ok py' ∧ py'.cap.N = new.length ∧
      ∀ i < new.length, py'.cap.inp.ts i = new.getD i 0 := by
  have h0 : Agrees (pyNew d c) := by
    rw [create_none] at hc; simp only [Res.ok.injEq] at hc
    unfold pyNew
    rw [← hc]
    refine ⟨by simp, fun i hi => ?_⟩
    simp only at hi ⊢
    rw [if_pos hi, List.getD_eq_getElem _ _ (by simpa using hi)]
    simp
  have ha := pyRun_agrees d hd _ py ops h0 ht h
  have : ∃ py', setNewTimeSteps d py new = .ok py' := by
    unfold setNewTimeSteps
    by_cases hne : py.steps = new
    · exact ⟨_, if_pos hne⟩
    rw [if_neg hne]
    by_cases hl : py.steps.length = new.length
    · rw [if_pos hl]
      unfold updateSteps
      rw [if_neg (by omega), if_neg (by rw [← hl, ha.1]; simp)]
      exact ⟨_, rfl⟩
    · rw [if_neg hl, create_some d hd]; exact ⟨_, rfl⟩
  obtain ⟨py', e⟩ := this
  obtain ⟨⟨a1, a2⟩, a3⟩ := newSteps_agrees d hd py py' new ha e
  refine ⟨py', e, by rw [← a1, a3], fun i hi => ?_⟩
  rw [a2 i (by rw [← a1, a3]; exact hi), a3]

/-- **C81**, negation: set new time steps, reset with numerical values, set the same new time steps again.  The last call
returns without doing anything, since the Python object compares with its own record, and the solver keeps the time
steps of the description. -/
theorem C81_new_steps_stale_false (d : Desc K) (hd : 0 < d.N) (c : Capsule K) (hc : create d d.N none = .ok c)
    (new : List K) (hl : new.length = d.N) (x0 : Bool) :
    ∃ py, pyRun d (pyNew d c) [.newSteps new, .other (.reset true x0), .newSteps new] = .ok py ∧
      py.steps = new ∧ ∀ i < d.N, py.cap.inp.ts i = d.timeSteps i := by
  obtain ⟨p1, e1, hN, -⟩ := C81_new_steps_partial d hd c hc [] (by simp) (pyNew d c) rfl new
  have hs : p1.steps = new := by
    have h0 : Agrees (pyNew d c) := by
      rw [create_none] at hc; simp only [Res.ok.injEq] at hc
      unfold pyNew
      rw [← hc]
      refine ⟨by simp, fun i hi => ?_⟩
      simp only at hi ⊢
      rw [if_pos hi, List.getD_eq_getElem _ _ (by simpa using hi)]
      simp
    exact (newSteps_agrees d hd _ p1 new h0 e1).2
  obtain ⟨s, e2, es⟩ := reset_num d x0 p1.cap (by rw [hN, hl])
  refine ⟨⟨⟨d.N, s, resetIter d x0 d.N s⟩, p1.steps⟩, ?_, hs, fun i hi => ?_⟩
  · have a1 : pyStep d (pyNew d c) (.newSteps new) = .ok p1 := e1
    have a2 : pyStep d p1 (.other (.reset true x0)) = .ok ⟨⟨d.N, s, resetIter d x0 d.N s⟩, p1.steps⟩ := by
      simp only [pyStep, step, e2, Res.bind]
    have a3 : pyStep d ⟨⟨d.N, s, resetIter d x0 d.N s⟩, p1.steps⟩ (.newSteps new)
        = .ok ⟨⟨d.N, s, resetIter d x0 d.N s⟩, p1.steps⟩ := by
      simp only [pyStep, setNewTimeSteps]; rw [if_pos hs]
    simp only [pyRun, List.foldl_cons, List.foldl_nil, Res.bind, a1, a2, a3]
  · simp only [es]; rw [if_pos hi]

/-! ### A concrete description -/

/-- two stages, one bounded state, one bounded input, linear least squares, time steps 1 and 2, cost scaling 3, 4, 5 -/
def dEx : Desc Int where
  N := 2
  timeSteps i := if i = 0 then 1 else 2
  costScaling i := 3 + i
  nx := 1
  nu := 1
  nz := 0
  np := 2
  npGlobal := 1
  nGlobalData := 1
  ny _ := 2
  ns k := if k = .path then 1 else 0
  nbx _ := 1
  nbxe0 := 1
  nbu := 1
  ng k := if k = .term then 0 else 1
  nh k := if k = .path then 2 else 0
  nphi _ := 0
  nsbu := 0
  nsbx _ := 0
  nsg _ := 0
  nsh k := if k = .path then 1 else 0
  nsphi _ := 0
  costType _ := .linearLs
  bgp _ := false
  hasRev _ := false
  hasX0 := true
  vec k _ j := (match k with | .init => 7 | .path => 8 | .term => 9) + j
  mat _ _ i j := 10 * i + j
  idx _ _ j := j
  p j := 20 + j
  pGlobal _ := 6
  pre l := l.map (· * 2)

theorem dEx_ok : dEx.Ok := by
  constructor
  · intro k; right; rfl
  · rfl
  · intro k h; cases h
  · intro h; cases h
  · intro _; rfl

/-- creation of the example: `x0 = 7` -/
example : ∃ c, create dEx dEx.N none = .ok c ∧ c.inp.ts 1 = 2 ∧ c.inp.scaling 2 = 5 ∧ c.inp.p 2 1 = 21 ∧
    c.inp.globalData = [12] ∧ c.inp.fld 1 .uh = some (.nums [8, 9]) ∧ c.inp.fld 0 .Vx = some (.nums [0, 10]) ∧
    c.out.x 2 0 = 7 := by
  obtain ⟨c, e, -, hs, hd, -, hx⟩ := C81_create dEx dEx_ok
  exact ⟨c, e, hs.ts 1 (by decide), hs.scaling 2 (by decide), hd.p 2 (by decide) 1 (by decide), hd.global (by decide) (by decide),
    hd.fld 1 (by decide) .uh _ rfl, hd.fld 0 (by decide) .Vx _ rfl, hx 2 (by decide) 0 (by decide)⟩

/-- a history with changed data, and a reset -/
example : ∃ c c' c'', create dEx dEx.N none = .ok c ∧
    run dEx c [.set 1 .uh (.nums [1, 1]), .timeSteps 2 (fun _ => 9), .params 0 (fun _ => 5), .pGlobal [1], .setScaling 2 0] = .ok c' ∧
    c'.inp.ts 0 = 9 ∧ c'.inp.scaling 2 = 0 ∧
    reset dEx true true c' = .ok c'' ∧ c''.inp.ts 0 = 1 ∧ c''.inp.scaling 2 = 5 ∧ c''.inp.p 0 0 = 20 ∧
    c''.inp.fld 1 .uh = some (.nums [8, 9]) ∧ c''.out.x 1 0 = 7 := by
  obtain ⟨⟨n, s, o⟩, hc, hN, -⟩ := C81_create dEx dEx_ok
  simp only at hN
  subst hN
  have hr : run dEx ⟨dEx.N, s, o⟩ [.set 1 .uh (.nums [1, 1]), .timeSteps 2 (fun _ => 9), .params 0 (fun _ => 5), .pGlobal [1], .setScaling 2 0] = .ok _ := rfl
  obtain ⟨c'', e, -, hs, hd, -, hx⟩ := C81_reset_partial dEx dEx_ok _ _ hc _ hr true
  exact ⟨_, _, c'', hc, hr, rfl, rfl, e, hs.ts 0 (by decide), hs.scaling 2 (by decide), hd.p 0 (by decide) 0 (by decide),
    hd.fld 1 (by decide) .uh _ rfl, hx rfl rfl (by decide) 1 (by decide) 0 (by decide)⟩

/-- a solver with three stages, then a reset -/
example : ∃ c, create dEx 3 (some (fun i => (i : Int))) = .ok c ∧ c.inp.ts 2 = 2 ∧ reset dEx true true c = .ub := by
  obtain ⟨c, e, -, ht, -⟩ := C81_create_steps dEx dEx_ok (by decide) 3 (by decide) (fun i => (i : Int))
  exact ⟨c, e, (ht 2 (by decide)).1, C81_reset_stages_false dEx (by decide) 3 (by decide) _ c c e [] rfl true⟩

/-- new time steps of three stages, and the forgotten ones after a reset -/
example : (∃ py, setNewTimeSteps dEx (pyNew dEx ⟨2, freshIn, zeroIter⟩) [4, 5, 6] = .ok py ∧ py.cap.N = 3 ∧ py.cap.inp.ts 1 = 5 ∧
      py.cap.inp.scaling 3 = 1) ∧
    ∃ c py, create dEx dEx.N none = .ok c ∧
      pyRun dEx (pyNew dEx c) [.newSteps [4, 5], .other (.reset true true), .newSteps [4, 5]] = .ok py ∧
      py.steps = [4, 5] ∧ py.cap.inp.ts 0 = 1 := by
  refine ⟨⟨_, rfl, rfl, rfl, rfl⟩, ?_⟩
  obtain ⟨py, e, h1, h2⟩ := C81_new_steps_stale_false dEx (by decide) _ (create_none dEx) [4, 5] rfl true
  exact ⟨_, py, create_none dEx, e, h1, h2 0 (by decide)⟩

end Acados.GenSolver
