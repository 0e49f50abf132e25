import Verif.Spec.CasadiQp
/-!
# QP for CasADi and its solver

`interfaces/acados_template/acados_template/acados_casadi_ocp_qp.py`: `AcadosCasadiOcpQp`, and
`acados_casadi_ocp_qp_solver.py`: `solve_for_x0`, `get`, `_get_lam`, `set`, `_set_lam` of `AcadosCasadiOcpQpSolver`.

The vector of symbols `w` is the list of its symbols, expressions are functions of the point.  Arrays of numbers are functions of the
index.  Simplifications: masks are `0` or `1` and given for all constraints (asserted by `make_consistent`), `idxs_rev < 0` is
`none`, indices are in range, the solver of CasADi is not modelled: a solution is any `w`, `lam_w`, `lam_g`.
-/
namespace Acados.CasadiQp
open Finset
variable {K : Type} [Field K] [LinearOrder K]

/-- a symbol: kind, stage, entry -/
abbrev Sym := Fld × Nat × Nat

/-- state of the construction of `w`: symbols, bounds, `*_in_w`, `lam_*_in_lam_w`, `offset_w`, `offset_lam` -/
structure W (K : Type) where
  syms : List Sym
  lb : List (Option K)
  ub : List (Option K)
  wmap : Fld → List (List Nat)
  lmap : Fld → List (List Nat)
  offW : Nat
  offLam : Nat

/-- `_apply_hard_bounds_from_masks`, acados_casadi_ocp_qp.py:452-466, for one side -/
def hard (nb : Nat) (mask : Nat → Bool) (rev : Nat → Option Nat) (vidx : Nat → Nat) (v : Nat → K) : Nat → Option K :=
  (List.range nb).foldl (fun a j => if mask j && (rev j).isNone then Function.update a (vidx j) (some (v j)) else a) (fun _ => none)

/-- bounds of the variables of a stage, `_setup_bounds`, acados_casadi_ocp_qp.py:317-383 -/
def wLb (s : Stage K) : Fld → Nat → Option K
  | .x => hard s.nbx s.lbxM (fun j => s.rev (s.nbu + j)) (fun j => s.idxb (s.nbu + j) - s.nu) s.lbx
  | .u => hard s.nbu s.lbuM s.rev s.idxb s.lbu
  | .sl => fun j => act (s.llsM j) (s.lls j)
  | .su => fun j => act (s.lusM j) (s.lus j)
def wUb (s : Stage K) : Fld → Nat → Option K
  | .x => hard s.nbx s.ubxM (fun j => s.rev (s.nbu + j)) (fun j => s.idxb (s.nbu + j) - s.nu) s.ubx
  | .u => hard s.nbu s.ubuM s.rev s.idxb s.ubu
  | .sl => fun _ => none
  | .su => fun _ => none

/-- numbers of variables and of multipliers of bounds recorded for them -/
def size (s : Stage K) : Fld → Nat
  | .x => s.nx
  | .u => s.nu
  | .sl => s.ns
  | .su => s.ns
def nlam (s : Stage K) : Fld → Nat
  | .x => s.nbx
  | .u => s.nbu
  | .sl => s.ns
  | .su => s.ns

/-- `_create_symbolic_with_bound_and_append`, acados_casadi_ocp_qp.py:265-315, with the offsets of lines 344-345, 366-367, 373-374,
380-381 -/
def addVar (s : Stage K) (k : Nat) (a : W K) (f : Fld) : W K where
  syms := a.syms ++ (List.range (size s f)).map fun j => (f, k, j)
  lb := a.lb ++ (List.range (size s f)).map (wLb s f)
  ub := a.ub ++ (List.range (size s f)).map (wUb s f)
  wmap := fun g => if g = f then a.wmap f ++ [List.range' a.offW (size s f)] else a.wmap g
  lmap := fun g => if g = f then a.lmap f ++ [List.range' a.offLam (nlam s f)] else a.lmap g
  offW := a.offW + size s f
  offLam := a.offLam + size s f

/-- acados_casadi_ocp_qp.py:108-117 -/
def buildW (qp : Qp K) : W K :=
  (List.range (qp.N + 1)).foldl (fun a k => [Fld.x, .u, .sl, .su].foldl (addVar (qp.st k) k) a)
    ⟨[], [], [], fun _ => [], fun _ => [], 0, 0⟩

/-- a constraint -/
structure Row (K : Type) where
  expr : Pt K → K
  lb : Option K
  ub : Option K

/-- the lists of indices `*_in_lam_g` -/
inductive Key | pi | g | gsl | gsu | bxsl | bxsu | busl | busu deriving DecidableEq

/-- state of the construction of `g`: constraints, `offset_g`, lists of indices for each stage -/
structure G (K : Type) where
  rows : List (Row K)
  off : Nat
  map : Key → Nat → List Nat

/-- `_append_constraints`, acados_casadi_ocp_qp.py:385-440 -/
def app (a : G K) (key : Key) (k : Nat) (l : List (Row K)) : G K where
  rows := a.rows ++ l
  off := a.off + l.length
  map := fun key' k' => if key' = key ∧ k' = k then a.map key k ++ List.range' a.off l.length else a.map key' k'

/-- dynamics, acados_casadi_ocp_qp.py:131-137 -/
def dynRows (s : Stage K) (nxNext k : Nat) : List (Row K) :=
  (List.range nxNext).map fun j =>
    ⟨fun p => p .x (k + 1) j - (∑ i ∈ range s.nx, s.A j i * p .x k i) - (∑ i ∈ range s.nu, s.B j i * p .u k i) - s.b j, some 0, some 0⟩

/-- `_masked_soft_bounds_from_masks`, acados_casadi_ocp_qp.py:469-489: positions of soft bounds -/
def softIdx (n : Nat) (rev : Nat → Option Nat) : List Nat := (List.range n).filter fun j => (rev j).isSome

/-- rows of soft bounds, acados_casadi_ocp_qp.py:163-193: the variable is the one at the position of the bound -/
def softLower (k n : Nat) (f : Fld) (rev : Nat → Option Nat) (m : Nat → Bool) (v : Nat → K) : List (Row K) :=
  (softIdx n rev).map fun j => ⟨fun p => p f k j + p .sl k ((rev j).getD 0), act (m j) (v j), none⟩
def softUpper (k n : Nat) (f : Fld) (rev : Nat → Option Nat) (m : Nat → Bool) (v : Nat → K) : List (Row K) :=
  (softIdx n rev).map fun j => ⟨fun p => p f k j - p .su k ((rev j).getD 0), none, act (m j) (v j)⟩

/-- soft bounds of one kind, acados_casadi_ocp_qp.py:172-177 and 188-193 -/
def addSoft (a : G K) (k n : Nat) (f : Fld) (kl ku : Key) (rev : Nat → Option Nat) (ml mu : Nat → Bool) (l u : Nat → K) : G K :=
  if softIdx n rev = [] then a
  else app (app a kl k (softLower k n f rev ml l)) ku k (softUpper k n f rev mu u)

/-- `lin_expr[j]`, acados_casadi_ocp_qp.py:201-202 -/
def linExpr (s : Stage K) (k j : Nat) (p : Pt K) : K :=
  if 0 < s.nu then (∑ i ∈ range s.nx, s.C j i * p .x k i) + ∑ i ∈ range s.nu, s.D j i * p .u k i
  else ∑ i ∈ range s.nx, s.C j i * p .x k i

/-- a linear constraint, acados_casadi_ocp_qp.py:205-218 -/
def addLin (s : Stage K) (k : Nat) (a : G K) (j : Nat) : G K :=
  let lb := act (s.lgM j) (s.lg j)
  let ub := act (s.ugM j) (s.ug j)
  match s.rev (s.nb + j) with
  | some i =>
    app (app a .gsl k [⟨fun p => linExpr s k j p + p .sl k i, lb, none⟩]) .gsu k [⟨fun p => linExpr s k j p - p .su k i, none, ub⟩]
  | none => app a .g k [⟨linExpr s k j, lb, ub⟩]

/-- constraints of a stage, acados_casadi_ocp_qp.py:141-218 -/
def addStage (s : Stage K) (k : Nat) (a : G K) : G K :=
  let a1 := addSoft a k s.nbu .u .busl .busu s.rev s.lbuM s.ubuM s.lbu s.ubu
  let a2 := addSoft a1 k s.nbx .x .bxsl .bxsu (fun j => s.rev (s.nbu + j)) s.lbxM s.ubxM s.lbx s.ubx
  (List.range s.ng).foldl (addLin s k) a2

/-- acados_casadi_ocp_qp.py:125-218 -/
def buildG (qp : Qp K) : G K :=
  let a := (List.range qp.N).foldl (fun a k => app a .pi k (dynRows (qp.st k) (qp.st (k + 1)).nx k)) ⟨[], 0, fun _ _ => []⟩
  (List.range (qp.N + 1)).foldl (fun a k => addStage (qp.st k) k a) a

/-- cost of a stage, acados_casadi_ocp_qp.py:224-253 -/
def stageCost (s : Stage K) (k : Nat) (p : Pt K) : K :=
  let f1 := 1 / 2 * (∑ i ∈ range s.nx, ∑ j ∈ range s.nx, p .x k i * s.Q i j * p .x k j) + ∑ i ∈ range s.nx, s.q i * p .x k i
  let f2 := if 0 < s.nu then
      f1 + 1 / 2 * (∑ i ∈ range s.nu, ∑ j ∈ range s.nu, p .u k i * s.R i j * p .u k j)
        + (∑ i ∈ range s.nu, p .u k i * ∑ j ∈ range s.nx, s.S i j * p .x k j) + ∑ i ∈ range s.nu, s.r i * p .u k i
    else f1
  if 0 < s.ns then
    f2 + (1 / 2 * (∑ j ∈ range s.ns, s.Zl j * p .sl k j * p .sl k j) + ∑ j ∈ range s.ns, s.zl j * p .sl k j)
      + (1 / 2 * (∑ j ∈ range s.ns, s.Zu j * p .su k j * p .su k j) + ∑ j ∈ range s.ns, s.zu j * p .su k j)
  else f2

/-- the objective, acados_casadi_ocp_qp.py:221-253 -/
def objective (qp : Qp K) (p : Pt K) : K := (List.range (qp.N + 1)).foldl (fun f k => f + stageCost (qp.st k) k p) 0

/-- the point satisfies the bounds and constraints given to CasADi -/
def NlpFeasible (qp : Qp K) (p : Pt K) : Prop :=
  (∀ (i : Nat) (e : Sym), (buildW qp).syms[i]? = some e → leO (((buildW qp).lb[i]?).getD none) (p e.1 e.2.1 e.2.2) ∧ geO (((buildW qp).ub[i]?).getD none) (p e.1 e.2.1 e.2.2))
  ∧ ∀ r ∈ (buildG qp).rows, leO r.lb (r.expr p) ∧ geO r.ub (r.expr p)

/-- writing `v` at the indices `idx` of an array: `a[idx] = v` -/
def put {α : Type} (a : Nat → α) (idx : List Nat) (v : List α) : Nat → α :=
  (idx.zip v).foldl (fun a q => Function.update a q.1 q.2) a

/-- reading an array at indices: `a[idx]` -/
def pick {α : Type} (a : Nat → α) (idx : List Nat) : List α := idx.map a

/-- `get` for a primal field, acados_casadi_ocp_qp_solver.py:159-169 -/
def getW (qp : Qp K) (w : Nat → K) (k : Nat) (f : Fld) : List K := pick w (((buildW qp).wmap f)[k]?.getD [])

/-- `set` for a primal field, acados_casadi_ocp_qp_solver.py:242-255 -/
def setW (qp : Qp K) (w0 : Nat → K) (k : Nat) (f : Fld) (v : List K) : Nat → K := put w0 (((buildW qp).wmap f)[k]?.getD []) v

/-- bounds after `solve_for_x0`, acados_casadi_ocp_qp_solver.py:140-143 -/
def fixX0 (qp : Qp K) (bnd : Nat → Option K) (x0 : List K) : Nat → Option K := put bnd (((buildW qp).wmap .x)[0]?.getD []) (x0.map some)

/-- `get` and `set` of `pi`, acados_casadi_ocp_qp_solver.py:170-174 and 256-259 -/
def getPi (qp : Qp K) (lamg : Nat → K) (k : Nat) : List K :=
  if qp.N ≤ k then [] else (pick lamg ((buildG qp).map .pi k)).map fun a => -a
def setPi (qp : Qp K) (lamg : Nat → K) (k : Nat) (v : List K) : Nat → K :=
  if k < qp.N then put lamg ((buildG qp).map .pi k) (v.map fun a => -a) else lamg

/-- position of an entry in sorted order: `np.argsort(np.argsort(l))` for distinct entries -/
def rank (l : List Nat) (a : Nat) : Nat := l.countP (· < a)

/-- `v[np.argsort(l)]` for distinct entries of `l` -/
def sortBy (l : List Nat) (v : List K) : List K :=
  (List.range l.length).map fun r => ((l.zip v).find? fun q => rank l q.1 == r).elim 0 (·.2)

/-- multipliers of bounds of one kind, acados_casadi_ocp_qp_solver.py:191-206 -/
def lamB (g : G K) (k : Nat) (kl ku : Key) (lidx : List Nat) (lamw lamg : Nat → K) : List K × List K :=
  if g.map kl k = [] then ((pick lamw lidx).map fun a => max 0 (-a), (pick lamw lidx).map fun a => max 0 a)
  else ((pick lamg (g.map kl k)).map fun a => -a, pick lamg (g.map ku k))

/-- multipliers of linear constraints, acados_casadi_ocp_qp_solver.py:207-221 -/
def lamG (g : G K) (k : Nat) (lamg : Nat → K) : List K × List K :=
  let h := pick lamg (g.map .g k)
  if g.map .gsl k = [] then (h.map fun a => max 0 (-a), h.map fun a => max 0 a)
  else
    let idx := g.map .g k ++ g.map .gsl k
    (sortBy idx ((h.map fun a => max 0 (-a)) ++ (pick lamg (g.map .gsl k)).map fun a => -a),
     sortBy idx ((h.map fun a => max 0 a) ++ pick lamg (g.map .gsu k)))

/-- `_get_lam`, acados_casadi_ocp_qp_solver.py:182-228 -/
def getLam (qp : Qp K) (lamw lamg : Nat → K) (k : Nat) : List K :=
  let w := buildW qp
  let g := buildG qp
  let bu := lamB g k .busl .busu ((w.lmap .u)[k]?.getD []) lamw lamg
  let bx := lamB g k .bxsl .bxsu ((w.lmap .x)[k]?.getD []) lamw lamg
  let gl := lamG g k lamg
  bu.1 ++ bx.1 ++ gl.1 ++ bu.2 ++ bx.2 ++ gl.2
    ++ ((pick lamw ((w.lmap .sl)[k]?.getD [])).map fun a => -a) ++ (pick lamw ((w.lmap .su)[k]?.getD [])).map fun a => -a

/-- a slice `v[a:a+n]` -/
def slice (v : List K) (a n : Nat) : List K := (v.drop a).take n

/-- multipliers of bounds of one kind, acados_casadi_ocp_qp_solver.py:308-317 -/
def setB (g : G K) (k : Nat) (kl ku : Key) (lidx : List Nat) (l u : List K) (a : (Nat → K) × (Nat → K)) : (Nat → K) × (Nat → K) :=
  if g.map kl k = [] then (put a.1 lidx (List.zipWith (· - ·) u l), a.2)
  else (a.1, put (put a.2 (g.map kl k) (l.map fun a => -a)) (g.map ku k) u)

/-- multipliers of linear constraints, acados_casadi_ocp_qp_solver.py:295-306 and 318-320 -/
def setG (g : G K) (k : Nat) (l u : List K) (a : Nat → K) : Nat → K :=
  let n := (g.map .g k).length
  let idx := g.map .g k ++ g.map .gsl k
  let pos := idx.map (rank idx)
  let lH := (pos.take n).map fun i => l.getD i 0
  let lS := (pos.drop n).map fun i => l.getD i 0
  let uH := (pos.take n).map fun i => u.getD i 0
  let uS := (pos.drop n).map fun i => u.getD i 0
  put (put (put a (g.map .g k) (List.zipWith (· - ·) lH uH)) (g.map .gsl k) (lS.map fun a => -a)) (g.map .gsu k) uS

/-- `_set_lam`, acados_casadi_ocp_qp_solver.py:268-324; the result is `lam_x0`, `lam_g0` -/
def setLam (qp : Qp K) (lamw lamg : Nat → K) (k : Nat) (v : List K) : (Nat → K) × (Nat → K) :=
  let w := buildW qp
  let g := buildG qp
  let s := qp.st k
  let ng := (g.map .g k).length + (g.map .gsl k).length
  let ns := ((w.lmap .sl)[k]?.getD []).length
  let up := s.nbu + s.nbx + ng
  let lbu := slice v 0 s.nbu
  let lbx := slice v s.nbu s.nbx
  let lbg := slice v (s.nbu + s.nbx) ng
  let ubu := slice v up s.nbu
  let ubx := slice v (up + s.nbu) s.nbx
  let ubg := slice v (up + s.nbu + s.nbx) ng
  let sl := slice v (2 * (s.nbu + s.nbx + ng)) ns
  let su := slice v (2 * (s.nbu + s.nbx + ng) + ns) ns
  let a := if k < qp.N then setB g k .busl .busu ((w.lmap .u)[k]?.getD []) lbu ubu (lamw, lamg) else (lamw, lamg)
  let b := setB g k .bxsl .bxsu ((w.lmap .x)[k]?.getD []) lbx ubx a
  (put (put b.1 ((w.lmap .sl)[k]?.getD []) (sl.map fun a => -a)) ((w.lmap .su)[k]?.getD []) (su.map fun a => -a), setG g k lbg ubg b.2)

/-- lengths that the assignments of `_set_lam` need, acados_casadi_ocp_qp_solver.py:303-324; numpy raises an exception otherwise
(values of length one, which numpy repeats, are not allowed for here) -/
def lamFits (qp : Qp K) (k : Nat) (v : List K) : Bool :=
  let w := buildW qp
  let g := buildG qp
  let s := qp.st k
  let ng := (g.map .g k).length + (g.map .gsl k).length
  let ns := ((w.lmap .sl)[k]?.getD []).length
  let up := s.nbu + s.nbx + ng
  let fit (kl : Key) (f : Fld) (a n : Nat) : Bool :=
    (slice v a n).length == (if g.map kl k = [] then (w.lmap f)[k]?.getD [] else g.map kl k).length
      && (slice v (up + a) n).length == (if g.map kl k = [] then (w.lmap f)[k]?.getD [] else g.map kl k).length
  (decide (qp.N ≤ k) || fit .busl .u 0 s.nbu) && fit .bxsl .x s.nbu s.nbx
    && (slice v (s.nbu + s.nbx) ng).length == ng && (slice v (up + s.nbu + s.nbx) ng).length == ng
    && (slice v (2 * (s.nbu + s.nbx + ng)) ns).length == ns && (slice v (2 * (s.nbu + s.nbx + ng) + ns) ns).length == ns

/-- `set` for `lam`, acados_casadi_ocp_qp_solver.py:260-261; `none` is an exception -/
def setLamE (qp : Qp K) (lamw lamg : Nat → K) (k : Nat) (v : List K) : Option ((Nat → K) × (Nat → K)) :=
  if lamFits qp k v then some (setLam qp lamw lamg k v) else none

/-- `set_flat` for `lam`, acados_casadi_ocp_qp_solver.py:417-425: the length of a stage counts only hard linear constraints; `none` is
an exception -/
def setFlatLam (qp : Qp K) (lamw lamg : Nat → K) (v : List K) : Option ((Nat → K) × (Nat → K)) :=
  ((List.range (qp.N + 1)).foldl (fun (a : Option (((Nat → K) × (Nat → K)) × Nat)) k =>
    a.bind fun a =>
      let n := 2 * ((qp.st k).nbu + (qp.st k).nbx + ((buildG qp).map .g k).length + (qp.st k).ns)
      (setLamE qp a.1.1 a.1.2 k (slice v a.2 n)).map fun r => (r, a.2 + n)) (some ((lamw, lamg), 0))).map (·.1)

/-- `get_flat` for `lam`, acados_casadi_ocp_qp_solver.py:379-380 -/
def getFlatLam (qp : Qp K) (lamw lamg : Nat → K) : List K := (List.range (qp.N + 1)).flatMap (getLam qp lamw lamg)

end Acados.CasadiQp
