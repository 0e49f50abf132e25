import Verif.Spec.CasadiNlp

/-!
Model of `interfaces/acados_template/acados_template/acados_casadi_ocp.py` (construction of the NLP
in multiple shooting form) and of `acados_casadi_ocp_solver.py` (access to primal and dual
variables by stage).  CasADi and the NLP solver are not modelled: the NLP is a list of symbols, a
list of expressions and their bounds; the solver's result is an arbitrary vector.
Exceptions are `none`.
-/

namespace Acados.CasadiNlp

/-- Symbols of the decision variables, acados_casadi_ocp.py:396-459 (`ca_symbol(f'x{i}', nx, 1)`
and so on), one per entry. -/
inductive Sym where
  | x (i j : ℕ)
  | u (i j : ℕ)
  | sl (i k : ℕ)
  | su (i k : ℕ)
  deriving DecidableEq, Repr

/-- Entries of the vector of constraint expressions, acados_casadi_ocp.py:223-328, as symbolic
expressions: dynamics, linear, nonlinear, its two parts if soft (row `r`, slack `k`),
convex-over-nonlinear. -/
inductive Con where
  | dyn (i j : ℕ)
  | lin (i r : ℕ)
  | h (i r : ℕ)
  | hl (i r k : ℕ)
  | hu (i r k : ℕ)
  | phi (i r : ℕ)
  deriving DecidableEq, Repr

section
variable {K : Type*}

/-- Decision variables, their bounds and index maps, acados_casadi_ocp.py:65-101, 121-137. -/
structure Vars (K : Type*) where
  w : List Sym
  lbw : List (Option K)
  ubw : List (Option K)
  offW : ℕ
  offLam : ℕ
  xInW : List (List ℕ)
  uInW : List (List ℕ)
  slInW : List (List ℕ)
  suInW : List (List ℕ)
  lamBx : List (List ℕ)
  lamBu : List (List ℕ)
  lamSl : List (List ℕ)
  lamSu : List (List ℕ)

/-- acados_casadi_ocp.py:65-101. -/
def Vars.empty : Vars K := ⟨[], [], [], 0, 0, [], [], [], [], [], [], [], []⟩

/-- `list(range(off, off + n))`, acados_casadi_ocp.py:422, 430, 440, 543. -/
def block (off n : ℕ) : List ℕ := (List.range n).map (fun j => off + j)

/-- `lb_default = -np.inf * ca.DM.ones((n, 1)); lb_default[idx] = lb`,
acados_casadi_ocp.py:510-513, 517-520: entries are written one after the other. -/
def scatter (n nb : ℕ) (idx : ℕ → ℕ) (b : ℕ → K) : List (Option K) :=
  (List.range nb).foldl (fun l k => l.set (idx k) (some (b k))) (List.replicate n none)

/-- The stage data used for variables, acados_casadi_ocp.py:402-413, 487-508. -/
def varData (o : Ocp K) (i : ℕ) : Stage K :=
  if i = 0 then o.init else if i < o.N then o.path else o.term

/-- `ns_0`, `ns`, `ns_e`, acados_ocp.py:706 (`nsbu + nsg + nsphi_0 + nsh_0`); the soft bounds and
soft linear constraints are refused before, see `refused`. -/
def numSlack (d : Stage K) : ℕ := d.nsh + d.nsphi

/-- Case `'x'`, acados_casadi_ocp.py:415-423 with 509-515. -/
def addX (o : Ocp K) (i : ℕ) (s : Vars K) : Vars K :=
  let d := varData o i
  { s with
    w := s.w ++ (List.range o.nx).map (Sym.x i)
    lbw := s.lbw ++ scatter o.nx d.nbx d.idxbx d.lbx
    ubw := s.ubw ++ scatter o.nx d.nbx d.idxbx d.ubx
    lamBx := s.lamBx ++ [(List.range d.nbx).map (fun k => s.offLam + d.idxbx k)]
    offLam := s.offLam + o.nx
    xInW := s.xInW ++ [block s.offW o.nx]
    offW := s.offW + o.nx }

/-- Case `'u'`, acados_casadi_ocp.py:424-431 with 516-522. -/
def addU (o : Ocp K) (i : ℕ) (s : Vars K) : Vars K :=
  { s with
    w := s.w ++ (List.range o.nu).map (Sym.u i)
    lbw := s.lbw ++ scatter o.nu o.nbu o.idxbu o.lbu
    ubw := s.ubw ++ scatter o.nu o.nbu o.idxbu o.ubu
    lamBu := s.lamBu ++ [(List.range o.nbu).map (fun k => s.offLam + o.idxbu k)]
    offLam := s.offLam + o.nu
    uInW := s.uInW ++ [block s.offW o.nu]
    offW := s.offW + o.nu }

variable [Zero K]

/-- Case `'sl'`, acados_casadi_ocp.py:432-446 with 523-527: the bounds are zero and infinity. -/
def addSl (o : Ocp K) (i : ℕ) (s : Vars K) : Vars K :=
  let ns := numSlack (varData o i)
  { s with
    w := if 0 < ns then s.w ++ (List.range ns).map (Sym.sl i) else s.w
    lbw := s.lbw ++ List.replicate ns (some 0)
    ubw := s.ubw ++ List.replicate ns none
    lamSl := s.lamSl ++ [block s.offLam ns]
    offLam := s.offLam + ns
    slInW := s.slInW ++ [if 0 < ns then block s.offW ns else []]
    offW := if 0 < ns then s.offW + ns else s.offW }

/-- Case `'su'`, acados_casadi_ocp.py:447-459 with 528-532. -/
def addSu (o : Ocp K) (i : ℕ) (s : Vars K) : Vars K :=
  let ns := numSlack (varData o i)
  { s with
    w := if 0 < ns then s.w ++ (List.range ns).map (Sym.su i) else s.w
    lbw := s.lbw ++ List.replicate ns (some 0)
    ubw := s.ubw ++ List.replicate ns none
    lamSu := s.lamSu ++ [block s.offLam ns]
    offLam := s.offLam + ns
    suInW := s.suInW ++ [if 0 < ns then block s.offW ns else []]
    offW := if 0 < ns then s.offW + ns else s.offW }

/-- One pass of the loop acados_casadi_ocp.py:142-155. -/
def varStage (o : Ocp K) (s : Vars K) (i : ℕ) : Vars K :=
  let s := addX o i s
  let s := if i < o.N then addU o i s else s
  let s := addSl o i s
  addSu o i s

/-- acados_casadi_ocp.py:141-155. -/
def vars (o : Ocp K) : Vars K := (List.range (o.N + 1)).foldl (varStage o) Vars.empty

end

section
variable {K : Type*}

/-- Constraints, bounds and index maps, acados_casadi_ocp.py:86-97, 187-189. -/
structure Cons (K : Type*) where
  g : List Con
  lbg : List (Option K)
  ubg : List (Option K)
  offG : ℕ
  pi : List (List ℕ)
  lamG : ℕ → List ℕ
  lamH : ℕ → List ℕ
  lamPhi : ℕ → List ℕ
  lamGnl : ℕ → List ℕ
  lamGnlSl : ℕ → List ℕ
  lamGnlSu : ℕ → List ℕ

/-- acados_casadi_ocp.py:86-98, 187-189. -/
def Cons.empty : Cons K :=
  ⟨[], [], [], 0, [], fun _ => [], fun _ => [], fun _ => [], fun _ => [], fun _ => [], fun _ => []⟩

/-- `self._index_map[key][i].extend(...)`, acados_casadi_ocp.py:549-557. -/
def extend (m : ℕ → List ℕ) (i : ℕ) (l : List ℕ) : ℕ → List ℕ :=
  fun i' => if i' = i then m i ++ l else m i'

/-- `_append_constraints`, field `'dyn'`, acados_casadi_ocp.py:539-544. -/
def appDyn (s : Cons K) (e : List Con) (lo up : List (Option K)) (n : ℕ) : Cons K :=
  { s with
    g := s.g ++ e
    lbg := s.lbg ++ lo
    ubg := s.ubg ++ up
    pi := s.pi ++ [block s.offG n]
    offG := s.offG + n }

/-- `_append_constraints`, field `'gnl'` without slack, `gnl_type = 'g'`,
acados_casadi_ocp.py:539-551. -/
def appG (s : Cons K) (i : ℕ) (e : List Con) (lo up : List (Option K)) (n : ℕ) : Cons K :=
  { s with
    g := s.g ++ e
    lbg := s.lbg ++ lo
    ubg := s.ubg ++ up
    lamG := extend s.lamG i (block s.offG n)
    lamGnl := extend s.lamGnl i (block s.offG n)
    offG := s.offG + n }

/-- The same with `gnl_type = 'h'`. -/
def appH (s : Cons K) (i : ℕ) (e : List Con) (lo up : List (Option K)) (n : ℕ) : Cons K :=
  { s with
    g := s.g ++ e
    lbg := s.lbg ++ lo
    ubg := s.ubg ++ up
    lamH := extend s.lamH i (block s.offG n)
    lamGnl := extend s.lamGnl i (block s.offG n)
    offG := s.offG + n }

/-- The same with `gnl_type = 'phi'`. -/
def appPhi (s : Cons K) (i : ℕ) (e : List Con) (lo up : List (Option K)) (n : ℕ) : Cons K :=
  { s with
    g := s.g ++ e
    lbg := s.lbg ++ lo
    ubg := s.ubg ++ up
    lamPhi := extend s.lamPhi i (block s.offG n)
    lamGnl := extend s.lamGnl i (block s.offG n)
    offG := s.offG + n }

/-- `_append_constraints` with `sl=True`, acados_casadi_ocp.py:539-542, 552-554. -/
def appSl (s : Cons K) (i : ℕ) (e : Con) (lo up : Option K) : Cons K :=
  { s with
    g := s.g ++ [e]
    lbg := s.lbg ++ [lo]
    ubg := s.ubg ++ [up]
    lamGnlSl := extend s.lamGnlSl i [s.offG]
    offG := s.offG + 1 }

/-- `_append_constraints` with `su=True`, acados_casadi_ocp.py:539-542, 555-557. -/
def appSu (s : Cons K) (i : ℕ) (e : Con) (lo up : Option K) : Cons K :=
  { s with
    g := s.g ++ [e]
    lbg := s.lbg ++ [lo]
    ubg := s.ubg ++ [up]
    lamGnlSu := extend s.lamGnlSu i [s.offG]
    offG := s.offG + 1 }

/-- The stage data used for constraints, acados_casadi_ocp.py:649, 670, 690. -/
def conData (o : Ocp K) (i : ℕ) : Stage K :=
  if i = 0 ∧ 0 < o.N then o.init else if i < o.N then o.path else o.term

/-- Number and bounds of the linear constraints, acados_casadi_ocp.py:650, 653, 672, 675, 692,
695: the initial stage uses those of the path. -/
def conNg (o : Ocp K) (i : ℕ) : ℕ := if i < o.N then o.ng else o.nge

/-- See `conNg`. -/
def conLg (o : Ocp K) (i : ℕ) : ℕ → K := if i < o.N then o.lg else o.lge

/-- See `conNg`. -/
def conUg (o : Ocp K) (i : ℕ) : ℕ → K := if i < o.N then o.ug else o.uge

/-- `constraints.idxsh` as a list. -/
def softList (d : Stage K) : List ℕ := (List.range d.nsh).map d.idxsh

/-- `hard_h_indices`, acados_casadi_ocp.py:273. -/
def hardList (d : Stage K) : List ℕ := (List.range d.nh).filter (fun r => r ∉ softList d)

/-- One pass of the loop over nonlinear constraints, acados_casadi_ocp.py:274-299. -/
def softStep (d : Stage K) (i : ℕ) (s : Cons K) (r : ℕ) : Cons K :=
  if r ∈ softList d then
    let k := (softList d).idxOf r
    let s := appSl s i (.hl i r k) (some (d.lh r)) none
    appSu s i (.hu i r k) none (some (d.uh r))
  else if r ∈ hardList d then appH s i [.h i r] [some (d.lh r)] [some (d.uh r)] 1
  else s

variable [Zero K]

/-- Dynamics of stage `i`, acados_casadi_ocp.py:225-236. -/
def dynPart (o : Ocp K) (i : ℕ) (s : Cons K) : Cons K :=
  if i < o.N then
    appDyn s ((List.range o.nx).map (Con.dyn i)) (List.replicate o.nx (some 0))
      (List.replicate o.nx (some 0)) o.nx
  else s

omit [Zero K] in
/-- Linear constraints of stage `i`, acados_casadi_ocp.py:261-267. -/
def linPart (o : Ocp K) (i : ℕ) (s : Cons K) : Cons K :=
  if 0 < conNg o i then
    appG s i ((List.range (conNg o i)).map (Con.lin i))
      ((List.range (conNg o i)).map (fun r => some (conLg o i r)))
      ((List.range (conNg o i)).map (fun r => some (conUg o i r))) (conNg o i)
  else s

omit [Zero K] in
/-- Nonlinear constraints of stage `i`, acados_casadi_ocp.py:270-306. -/
def hPart (o : Ocp K) (i : ℕ) (s : Cons K) : Cons K :=
  let d := conData o i
  if 0 < d.nh then
    if 0 < d.nsh then (List.range d.nh).foldl (softStep d i) s
    else
      appH s i ((List.range d.nh).map (Con.h i)) ((List.range d.nh).map (fun r => some (d.lh r)))
        ((List.range d.nh).map (fun r => some (d.uh r))) d.nh
  else s

omit [Zero K] in
/-- Convex-over-nonlinear constraints of stage `i`, acados_casadi_ocp.py:316-328. -/
def phiPart (o : Ocp K) (i : ℕ) (s : Cons K) : Cons K :=
  let d := conData o i
  if 0 < d.nphi then
    appPhi s i ((List.range d.nphi).map (Con.phi i))
      ((List.range d.nphi).map (fun r => some (d.lphi r)))
      ((List.range d.nphi).map (fun r => some (d.uphi r))) d.nphi
  else s

/-- One pass of the loop acados_casadi_ocp.py:223-337. -/
def conStage (o : Ocp K) (s : Cons K) (i : ℕ) : Cons K :=
  phiPart o i (hPart o i (linPart o i (dynPart o i s)))

/-- acados_casadi_ocp.py:223-337. -/
def cons (o : Ocp K) : Cons K := (List.range (o.N + 1)).foldl (conStage o) Cons.empty

omit [Zero K] in
/-- What is refused, acados_casadi_ocp.py:112-124 (`NotImplementedError`), without casados, and
line 562-580 for a horizon of length zero (`utraj_node[0]` of an empty list, `IndexError`).
Soft convex-over-nonlinear constraints of the initial stage are not among it. -/
def refused (o : Ocp K) : Bool :=
  decide (0 < o.nsbx) || decide (0 < o.nsbxe) || decide (0 < o.nsbu) ||
  decide (0 < o.nsg) || decide (0 < o.nsge) || decide (0 < o.path.nsphi) ||
  decide (0 < o.term.nsphi) || decide (0 < o.nz) || !o.explicitDyn || decide (o.N = 0)

/-- The NLP: decision variables and constraints. -/
structure Nlp (K : Type*) where
  v : Vars K
  c : Cons K

/-- `AcadosCasadiOcp.__init__`, acados_casadi_ocp.py:42-391, multiple shooting, without Hessian. -/
def build (o : Ocp K) : Option (Nlp K) :=
  if refused o then none else some ⟨vars o, cons o⟩

omit [Zero K] in
/-- Number of multiplier symbols created for the Hessian in stage `i`,
acados_casadi_ocp.py:237-240, 307-310, 329-331: none for linear constraints, one per row of `h`. -/
def hessMult (o : Ocp K) (i : ℕ) : ℕ :=
  (if i < o.N then o.nx else 0) + (conData o i).nh + (conData o i).nphi

/-- `AcadosCasadiOcp.__init__` with `with_hessian=True`: the assertion at line 377. -/
def buildHess (o : Ocp K) : Option (Nlp K) :=
  (build o).bind fun n =>
    if ((List.range (o.N + 1)).map (hessMult o)).sum = n.c.g.length then some n else none

end

section
variable {K : Type*} [Field K]

/-- The trajectory of an assignment of values to the symbols. -/
def traj (v : Sym → K) : Traj K :=
  ⟨fun i j => v (.x i j), fun i j => v (.u i j), fun i k => v (.sl i k), fun i k => v (.su i k)⟩

/-- The control argument of terminal functions: `h_e` has none (acados_casadi_ocp.py:702-703),
`phi_e` gets an empty symbol (line 321), which CasADi reads as zero. -/
def uArg (o : Ocp K) (v : Sym → K) (i : ℕ) : ℕ → K :=
  if i < o.N then fun j => v (.u i j) else fun _ => 0

/-- Values of constraint expressions: `dyn_equality` (acados_casadi_ocp.py:229 with 203-204: the
integrator is built once, with the numbers of steps and stages of interval 0),
`linear_constr_expr` (660, 682, 700), `h` (665, 686, 703), the two parts of a soft `h` (280, 287),
`phi` (324). -/
def Con.eval (o : Ocp K) (v : Sym → K) : Con → K
  | .dyn i j => v (.x (i + 1) j) -
      o.f (o.steps 0) i (fun j => v (.x i j)) (fun j => v (.u i j)) j
  | .lin i r =>
      if i < o.N then
        ((List.range o.nx).map (fun j => o.C r j * v (.x i j))).sum +
          ((List.range o.nu).map (fun j => o.D r j * v (.u i j))).sum
      else ((List.range o.nx).map (fun j => o.Ce r j * v (.x i j))).sum
  | .h i r => (conData o i).h i (fun j => v (.x i j)) (uArg o v i) r
  | .hl i r k => (conData o i).h i (fun j => v (.x i j)) (uArg o v i) r + v (.sl i k)
  | .hu i r k => (conData o i).h i (fun j => v (.x i j)) (uArg o v i) r - v (.su i k)
  | .phi i r => (conData o i).phi i (fun j => v (.x i j)) (uArg o v i) r

/-- Feasible points of the NLP: `lbx ≤ x ≤ ubx`, `lbg ≤ g(x) ≤ ubg`, acados_casadi_ocp.py:381-382
(the meaning of `casadi.nlpsol`'s arguments). -/
def Nlp.Feasible [LinearOrder K] (o : Ocp K) (n : Nlp K) (v : Sym → K) : Prop :=
  AllWithin (n.v.w.map v) n.v.lbw n.v.ubw ∧ AllWithin (n.c.g.map (Con.eval o v)) n.c.lbg n.c.ubg

/-- `penalty_expr_i`, acados_casadi_ocp.py:354-357. -/
def penalty (d : Stage K) (v : Sym → K) (i : ℕ) : K :=
  1 / 2 * ((List.range (numSlack d)).map (fun k => v (.sl i k) * (d.Zl k * v (.sl i k)))).sum +
  ((List.range (numSlack d)).map (fun k => d.zl k * v (.sl i k))).sum +
  1 / 2 * ((List.range (numSlack d)).map (fun k => v (.su i k) * (d.Zu k * v (.su i k)))).sum +
  ((List.range (numSlack d)).map (fun k => d.zu k * v (.su i k))).sum

/-- One pass of the loop acados_casadi_ocp.py:342-358: the terminal cost function is called with
the last control (`utraj_node[-1]`, line 629). -/
def costStep (o : Ocp K) (v : Sym → K) (acc : K) (i : ℕ) : K :=
  let d := varData o i
  let u := if i < o.N then (fun j => v (.u i j)) else (fun j => v (.u (o.N - 1) j))
  let acc := acc + o.scaling i * d.cost i (fun j => v (.x i j)) u
  if 0 < numSlack d then acc + o.scaling i * penalty d v i else acc

/-- `nlp_cost`, acados_casadi_ocp.py:340-358. -/
def cost (o : Ocp K) (v : Sym → K) : K := (List.range (o.N + 1)).foldl (costStep o v) 0

end

section
variable {K : Type*}

/-- numpy `a[idx]` for a list of indices, `IndexError` if one is out of range. -/
def pick (a : List K) : List ℕ → Option (List K)
  | [] => some []
  | p :: ps => (a[p]?).bind fun y => (pick a ps).map fun ys => y :: ys

/-- Writing values one after the other. -/
def write (a : List K) : List ℕ → List K → Option (List K)
  | [], [] => some a
  | p :: ps, y :: ys => if p < a.length then write (a.set p y) ps ys else none
  | _, _ => none

/-- numpy `a[idx] = vals` for one-dimensional arrays: a single value is broadcast, other lengths
have to agree (`ValueError`). -/
def assign (a : List K) (idx : List ℕ) : List K → Option (List K)
  | [y] => write a idx (List.replicate idx.length y)
  | vals => write a idx vals

/-- `a[map[i]] = vals`. -/
def assignAt (a : List K) (m : List (List ℕ)) (i : ℕ) (vals : List K) : Option (List K) :=
  (m[i]?).bind fun idx => assign a idx vals

/-- `a[lo:hi]`. -/
def slice (a : List K) (lo hi : ℕ) : List K := (a.take hi).drop lo

/-- `np.argsort`, for distinct keys. -/
def argsort (keys : List ℕ) : List ℕ :=
  (List.range keys.length).mergeSort (fun a b => decide (keys.getD a 0 ≤ keys.getD b 0))

/-- Fields with one index map of the primal variables. -/
inductive PField where
  | x | u | sl | su
  deriving DecidableEq

/-- Index maps of `get` and `set`, acados_casadi_ocp_solver.py:207, 211, 219, 221, 410, 414, 422,
424. -/
def Nlp.primal (n : Nlp K) : PField → List (List ℕ)
  | .x => n.v.xInW
  | .u => n.v.uInW
  | .sl => n.v.slInW
  | .su => n.v.suInW

/-- `get(stage, field)` for primal fields, acados_casadi_ocp_solver.py:206-221. -/
def getP (n : Nlp K) (w : List K) (f : PField) (i : ℕ) : Option (List K) :=
  ((n.primal f)[i]?).bind (pick w)

/-- `set(stage, field, value)` for primal fields, acados_casadi_ocp_solver.py:409-424. -/
def setP (n : Nlp K) (f : PField) (w0 : List K) (i : ℕ) (val : List K) : Option (List K) :=
  assignAt w0 (n.primal f) i val

/-- `get(stage, 'pi')`, acados_casadi_ocp_solver.py:213. -/
def getPi [Neg K] (n : Nlp K) (lamG : List K) (i : ℕ) : Option (List K) :=
  ((n.c.pi)[i]?).bind fun idx => (pick lamG idx).map (fun l => l.map (fun a => -a))

/-- `set(stage, 'pi', value)`, acados_casadi_ocp_solver.py:416. -/
def setPi [Neg K] (n : Nlp K) (lamG0 : List K) (i : ℕ) (val : List K) : Option (List K) :=
  assignAt lamG0 n.c.pi i (val.map (fun a => -a))

/-- `constraints_get(stage, 'lh')`, acados_casadi_ocp_solver.py:494-495. -/
def getLh (n : Nlp K) (i : ℕ) : Option (List (Option K)) := pick n.c.lbg (n.c.lamH i)

/-- `constraints_get(stage, 'lbx')`, acados_casadi_ocp_solver.py:482-483. -/
def getLbx (n : Nlp K) (i : ℕ) : Option (List (Option K)) :=
  ((n.v.lamBx)[i]?).bind (pick n.v.lbw)

/-- `set(stage, 'lbx', value)`, `constraints_set(stage, 'lbx', value)`,
acados_casadi_ocp_solver.py:427-428, 506-507. -/
def setLbx (n : Nlp K) (i : ℕ) (val : List K) : Option (Nlp K) :=
  ((n.v.lamBx)[i]?).bind fun idx =>
    (assign n.v.lbw idx (val.map some)).map fun l => { n with v := { n.v with lbw := l } }

variable [Field K] [LinearOrder K]

/-- `np.maximum(0, -lam)`. -/
def negPart (l : List K) : List K := l.map (fun a => max 0 (-a))

/-- `np.maximum(0, lam)`. -/
def posPart (l : List K) : List K := l.map (fun a => max 0 a)

/-- `-lam`. -/
def negate (l : List K) : List K := l.map (fun a => -a)

/-- `_get_lam`, acados_casadi_ocp_solver.py:734-766, multiple shooting. -/
def getLam (o : Ocp K) (n : Nlp K) (lamW lamG : List K) (i : ℕ) : Option (List K) := do
  let bx ← ((n.v.lamBx)[i]?).bind (pick lamW)
  let bu ← if i < o.N then ((n.v.lamBu)[i]?).bind (pick lamW) else some []
  let sl ← ((n.v.lamSl)[i]?).bind (pick lamW)
  let su ← ((n.v.lamSu)[i]?).bind (pick lamW)
  let g ← pick lamG (n.c.lamGnl i)
  let (lbg, ubg) ←
    if n.c.lamGnlSu i ≠ [] then do
      let lgs ← pick lamG (n.c.lamGnlSl i)
      let ugs ← pick lamG (n.c.lamGnlSu i)
      let sorted := argsort (n.c.lamGnl i ++ n.c.lamGnlSl i)
      let lo ← pick (negPart g ++ negate lgs) sorted
      let up ← pick (posPart g ++ ugs) sorted
      pure (lo, up)
    else pure (negPart g, posPart g)
  pure (negPart bu ++ negPart bx ++ lbg ++ (posPart bu ++ posPart bx ++ ubg) ++
    negate sl ++ negate su)

omit [Field K] [LinearOrder K] in
/-- Dimensions used by `_set_lam`, acados_casadi_ocp_solver.py:769-784: bounds on states, bounds on
controls, constraints, slacks. -/
def lamDims (o : Ocp K) (i : ℕ) : ℕ × ℕ × ℕ × ℕ :=
  if i = 0 then (o.init.nbx, o.nbu, o.ng + o.init.nh + o.init.nphi, numSlack o.init)
  else if i < o.N then (o.path.nbx, o.nbu, o.ng + o.path.nh + o.path.nphi, numSlack o.path)
  else (o.term.nbx, 0, o.nge + o.term.nh + o.term.nphi, numSlack o.term)

omit [LinearOrder K] in
/-- numpy `a - b` for one-dimensional arrays: a single value is broadcast, other lengths have to
agree (`ValueError`). -/
def minus : List K → List K → Option (List K)
  | [a], b => some (b.map (fun b => a - b))
  | a, [b] => some (a.map (fun a => a - b))
  | a, b => if a.length = b.length then some (List.zipWith (fun a b => a - b) a b) else none

/-- `_set_lam`, acados_casadi_ocp_solver.py:768-817, multiple shooting: writes initial multipliers
`lam_x0`, `lam_g0`. -/
def setLam (o : Ocp K) (n : Nlp K) (x0g0 : List K × List K) (i : ℕ) (val : List K) :
    Option (List K × List K) := do
  let (nbx, nbu, ng, ns) := lamDims o i
  let off := nbx + nbu + ng
  let lbu := slice val 0 nbu
  let lbx := slice val nbu (nbu + nbx)
  let lg := slice val (nbu + nbx) (nbu + nbx + ng)
  let ubu := slice val off (off + nbu)
  let ubx := slice val (off + nbu) (off + nbu + nbx)
  let ug := slice val (off + nbu + nbx) (off + nbu + nbx + ng)
  let lsg := slice val (2 * off) (2 * off + ns)
  let usg := slice val (2 * off + ns) (2 * off + 2 * ns)
  let inv := argsort (argsort (n.c.lamGnl i ++ n.c.lamGnlSl i))
  let hard := inv.take (n.c.lamGnl i).length
  let soft := inv.drop (n.c.lamGnl i).length
  let lgHard ← pick lg hard
  let lgSoft ← pick lg soft
  let ugHard ← pick ug hard
  let ugSoft ← pick ug soft
  let dx ← minus ubx lbx
  let x0 ← assignAt x0g0.1 n.v.lamBx i dx
  let x0 ← if i < o.N then
      (minus ubu lbu).bind fun du => assignAt x0 n.v.lamBu i du
    else some x0
  let dg ← minus ugHard lgHard
  let g0 ← assign x0g0.2 (n.c.lamGnl i) dg
  let g0 ← assign g0 (n.c.lamGnlSl i) (negate lgSoft)
  let g0 ← assign g0 (n.c.lamGnlSu i) ugSoft
  let x0 ← assignAt x0 n.v.lamSl i (negate lsg)
  let x0 ← assignAt x0 n.v.lamSu i (negate usg)
  pure (x0, g0)

/-- `set_iterate` for the field `lam` of an `AcadosOcpIterate` and `get_iterate`: stage by stage,
acados_casadi_ocp_solver.py:319-327, 384-386. -/
def copyLam (o : Ocp K) (n : Nlp K) (lamW lamG : List K) (x0g0 : List K × List K) :
    Option (List K × List K) :=
  (List.range (o.N + 1)).foldlM (fun s i => (getLam o n lamW lamG i).bind (setLam o n s i)) x0g0

omit [LinearOrder K] in
/-- The same for the field `pi`: stages before the last one. -/
def copyPi (o : Ocp K) (n : Nlp K) (lamG g0 : List K) : Option (List K) :=
  (List.range o.N).foldlM (fun s i => (getPi n lamG i).bind (setPi n s i)) g0

/-- `get_flat('lam')`, acados_casadi_ocp_solver.py:244-247. -/
def getFlatLam (o : Ocp K) (n : Nlp K) (lamW lamG : List K) : Option (List K) :=
  (List.range (o.N + 1)).foldlM (fun s i => (getLam o n lamW lamG i).map (fun l => s ++ l)) []

omit [Field K] [LinearOrder K] in
/-- `n_lam_i`, acados_casadi_ocp_solver.py:282-287: without slacks. -/
def nLam (o : Ocp K) (i : ℕ) : ℕ :=
  if i = 0 then 2 * (o.init.nbx + o.nbu + o.ng + o.init.nh + o.init.nphi)
  else if i < o.N then 2 * (o.path.nbx + o.nbu + o.ng + o.path.nh + o.path.nphi)
  else 2 * (o.term.nbx + o.nge + o.term.nh + o.term.nphi)

/-- `set_flat('lam', value)`, acados_casadi_ocp_solver.py:279-289. -/
def setFlatLam (o : Ocp K) (n : Nlp K) (x0g0 : List K × List K) (val : List K) :
    Option (List K × List K) :=
  ((List.range (o.N + 1)).foldlM (fun (s : (List K × List K) × ℕ) i =>
    (setLam o n s.1 i (slice val s.2 (s.2 + nLam o i))).map
      (fun r => (r, s.2 + nLam o i))) (x0g0, 0)).map (fun s => s.1)

end

end Acados.CasadiNlp
