import Verif.Spec.OcpDims

/-!
# Dimension checks of constraints and soft constraints

`interfaces/acados_template/acados_template/acados_ocp.py`: `_make_consistent_constraints_initial`,
`_path`, `_terminal` (lines 481-621), `_make_consistent_slacks_*` and `_make_consistent_slacks_rev_*`
(lines 624-984), and from `make_consistent` the parts that call them (lines 1182-1228) and the check of DDP
(lines 1310-1313).

An exception is `none`, or `false` for a function that only checks: the order of the checks is not modelled, as
all exceptions are one outcome.  Code that is repeated for several fields is one function.  Printed messages,
`constr_type` and the dimensions other than the numbers of slacks are not modelled.  Before the call the numbers
of slacks in `dims` are 0.
-/

namespace Acados.OcpDims

variable {K : Type}

/-- `any(idx >= n)`, e.g. acados_ocp.py:494 -/
def anyGe (idx : List Int) (n : Nat) : Bool := idx.any (fun i => decide (i ≥ n))

/-- checks of `idxb*`, `lb*`, `ub*`: acados_ocp.py:490-495, 534-540, 542-548, 591-597 -/
def boxOk (n : Nat) (b : Box K) : Bool :=
  !(b.u.length != b.idx.length || b.l.length != b.idx.length) && !anyGe b.idx n

/-- checks of `lh*`, `uh*` against the length of the expression: acados_ocp.py:507-512, 564-572, 605-610 -/
def rowsOk (n : Nat) (r : Rows K) : Bool := !(r.u.length != n || r.l.length != n)

/-- convex-over-nonlinear constraints: acados_ocp.py:514-523, 574-583, 612-621 -/
def phiOk (nphi nr : Nat) : Bool := nphi == 0 || nr != 0

/-- `np.all(idxbxe_0 == np.arange(nx))`, acados_ocp.py:500, with broadcasting of vectors of one entry; `none`: the
shapes do not match, an exception or `False` depending on the version of numpy, in both cases the description is
rejected -/
def allEqArange (l : List Int) (n : Nat) : Option Bool :=
  let ar := (List.range n).map (fun i : Nat => (i : Int))
  if l.length = n then some (decide (l = ar))
  else match l, n with
    | [v], _ => some (ar.all (· == v))
    | _, 1 => some (l.all (· == 0))
    | _, _ => none

/-- `_make_consistent_constraints_initial`, acados_ocp.py:481-523, for `N_horizon > 0` -/
def initOk (nx : Nat) (p : Init K) : Bool :=
  boxOk nx p.bx &&
  (!p.hasX0 || p.bx.idx.length == nx) &&
  (!p.hasX0 || allEqArange p.idxbxe nx == some true) &&
  !anyGe p.idxbxe p.bx.idx.length &&
  rowsOk p.nh p.h && phiOk p.nphi p.nr

/-- `_make_consistent_constraints_path`, acados_ocp.py:526-583, for `N_horizon > 0` -/
def pathOk (nx nu : Nat) (p : Path K) : Bool :=
  boxOk nx p.bx && boxOk nu p.bu &&
  !(p.g.u.length != p.g.l.length || p.C.rows != p.g.l.length || p.D.rows != p.g.l.length) &&
  !(decide (p.g.l.length > 0) && p.C.cols != nx) &&
  !(decide (p.g.l.length > 0) && p.D.cols != nu) &&
  rowsOk p.nh p.h && phiOk p.nphi p.nr

/-- `_make_consistent_constraints_terminal`, acados_ocp.py:586-621 -/
def termOk (nx : Nat) (p : Term K) : Bool :=
  boxOk nx p.bx &&
  !(p.g.u.length != p.g.l.length || p.C.rows != p.g.l.length) &&
  rowsOk p.nh p.h && phiOk p.nphi p.nr

/-- checks of soft constraints of one kind, e.g. acados_ocp.py:785-798 -/
def softOk (n : Nat) (s : Soft K) : Bool :=
  !decide (s.idx.length > n) && !anyGe s.idx n &&
  (s.l.isEmpty || s.l.length == s.idx.length) && (s.u.isEmpty || s.u.length == s.idx.length)

/-- bounds of slacks that are not given become zeros, `lsbx = np.zeros((nsbx,))`, e.g. acados_ocp.py:790-797 -/
def softFill [Zero K] (s : Soft K) : Soft K :=
  { s with
    l := if s.l.isEmpty then List.replicate s.idx.length 0 else s.l
    u := if s.u.isEmpty then List.replicate s.idx.length 0 else s.u }

/-- the loop over `Zl`, `Zu`, `zl`, `zu`, e.g. acados_ocp.py:861-866 -/
def penOk (ns : Nat) (p : Pen K) : Bool :=
  p.Zl.length == ns && p.Zu.length == ns && p.zl.length == ns && p.zu.length == ns

/-- `_make_consistent_slacks_path`, acados_ocp.py:773-867: the number of slacks and the filled fields -/
def slacksPath [Zero K] (p : Path K) : Option (Nat × Path K) :=
  let ns := p.sbx.idx.length + p.sbu.idx.length + p.sh.idx.length + p.sg.idx.length + p.sphi.idx.length
  if softOk p.bx.idx.length p.sbx && softOk p.bu.idx.length p.sbu && softOk p.nh p.sh && softOk p.nphi p.sphi
      && softOk p.g.l.length p.sg && penOk ns p.pen then
    some (ns, { p with sbx := softFill p.sbx, sbu := softFill p.sbu, sh := softFill p.sh,
                       sphi := softFill p.sphi, sg := softFill p.sg })
  else none

/-- `_make_consistent_slacks_terminal`, acados_ocp.py:907-984 -/
def slacksTerm [Zero K] (p : Term K) : Option (Nat × Term K) :=
  let ns := p.sbx.idx.length + p.sh.idx.length + p.sg.idx.length + p.sphi.idx.length
  if softOk p.bx.idx.length p.sbx && softOk p.nh p.sh && softOk p.nphi p.sphi
      && softOk p.g.l.length p.sg && penOk ns p.pen then
    some (ns, { p with sbx := softFill p.sbx, sh := softFill p.sh, sphi := softFill p.sphi,
                       sg := softFill p.sg })
  else none

/-- the penalties of the initial stage: acados_ocp.py:709-730; `ns`, `pen`: those of the intermediate stages; a
field that is `None` beside others that are not has no `shape`, an exception -/
def initPen (ns0 ns : Nat) (p : Pen0 K) (pen : Pen K) : Option (Pen K) :=
  match p with
  | ⟨none, none, none, none⟩ =>
      if ns0 = 0 then some ⟨[], [], [], []⟩ else if ns0 = ns then some pen else none
  | ⟨some a, some b, some c, some d⟩ => some ⟨a, b, c, d⟩
  | _ => none

/-- `_make_consistent_slacks_initial`, acados_ocp.py:663-730; `nsbu`, `nsg`, `ns`, `pen`: of the intermediate
stages -/
def slacksInit [Zero K] (nsbu nsg ns : Nat) (pen : Pen K) (p : Init K) : Option (Nat × Init K) :=
  let ns0 := nsbu + nsg + p.sphi.idx.length + p.sh.idx.length
  if softOk p.nh p.sh && softOk p.nphi p.sphi then
    match initPen ns0 ns p.pen pen with
    | none => none
    | some z =>
        if penOk ns0 z then
          some (ns0, { p with sh := softFill p.sh, sphi := softFill p.sphi,
                              pen := ⟨some z.zl, some z.zu, some z.Zl, some z.Zu⟩ })
        else none
  else none

/-- `np.max(idxs_rev) + 1`, utils.py:485 -/
def maxSucc : List Int → Int
  | [] => 0
  | [i] => i + 1
  | i :: l => max (i + 1) (maxSucc l)

/-- `ns_from_idxs_rev`, utils.py:481-489 -/
def nsRev (idx : List Int) : Option Nat :=
  if idx = [] then some 0
  else
    let ns := (maxSucc idx).toNat
    if (List.range ns).all (fun i => idx.contains (i : Int)) then some ns else none

/-- the checks of `_make_consistent_slacks_rev_*` on `idxs_rev`, `ls`, `us`, acados_ocp.py:632-651, 742-761,
876-896; `n`: number of constraints that are not bounds of slacks -/
def revNs (n : Nat) (s : Rev K) : Option Nat :=
  if s.idx.length != n then none
  else if s.idx.any (fun i => !(decide (-1 ≤ i) && decide (i < n))) then none
  else match nsRev s.idx with
    | none => none
    | some ns =>
        if (s.l.isEmpty || s.l.length == ns) && (s.u.isEmpty || s.u.length == ns) then some ns else none

/-- bounds of slacks that are not given become zeros, acados_ocp.py:644-651, 754-761, 889-896 -/
def revFill [Zero K] (ns : Nat) (s : Rev K) : Rev K :=
  { s with
    l := if s.l.isEmpty then List.replicate ns 0 else s.l
    u := if s.u.isEmpty then List.replicate ns 0 else s.u }

/-- `_make_consistent_slacks_rev_initial`, acados_ocp.py:624-660 -/
def slacksRevInit [Zero K] (q : Path K) (p : Init K) : Option (Nat × Init K) :=
  match revNs (q.bu.idx.length + p.bx.idx.length + p.nh + q.g.l.length + p.nphi) p.rev, p.pen with
  | some ns, ⟨some a, some b, some c, some d⟩ =>
      if penOk ns (⟨a, b, c, d⟩ : Pen K) then some (ns, { p with rev := revFill ns p.rev }) else none
  | _, _ => none

/-- `_make_consistent_slacks_rev_path`, acados_ocp.py:733-770 -/
def slacksRevPath [Zero K] (p : Path K) : Option (Nat × Path K) :=
  match revNs (p.bu.idx.length + p.bx.idx.length + p.nh + p.g.l.length + p.nphi) p.rev with
  | some ns => if penOk ns p.pen then some (ns, { p with rev := revFill ns p.rev }) else none
  | none => none

/-- `_make_consistent_slacks_rev_terminal`, acados_ocp.py:871-904 -/
def slacksRevTerm [Zero K] (p : Term K) : Option (Nat × Term K) :=
  match revNs (p.bx.idx.length + p.nh + p.g.l.length + p.nphi) p.rev with
  | some ns => if penOk ns p.pen then some (ns, { p with rev := revFill ns p.rev }) else none
  | none => none

/-- both formulations in the initial and intermediate stages, acados_ocp.py:1190-1195 -/
def mixOk (d : Desc K) : Bool :=
  (d.init.rev.idx.isEmpty && d.path.rev.idx.isEmpty) ||
  (d.path.sbx.idx.isEmpty && d.path.sbu.idx.isEmpty && d.path.sg.idx.isEmpty && d.init.sh.idx.isEmpty &&
    d.path.sh.idx.isEmpty && d.init.sphi.idx.isEmpty && d.path.sphi.idx.isEmpty)

/-- solvers for the formulation by `idxs_rev`, acados_ocp.py:1197-1201 -/
def revSolverOk (d : Desc K) : Bool :=
  (d.init.rev.idx.isEmpty && d.path.rev.idx.isEmpty && d.term.rev.idx.isEmpty) ||
  ((d.qp == .partialHpipm || d.qp == .fullHpipm) && !d.feasQp)

section
variable [Field K] [LinearOrder K]

/-- the check of a field for `ACADOS_INFTY`, acados_ocp.py:1227 -/
def finOk (l : List K) : Bool := !(l.any (fun v => decide (v ≥ 10 ^ 10)) || l.any (fun v => decide (v ≤ -10 ^ 10)))

/-- acados_ocp.py:1218-1228 -/
def inftyOk (d : Desc K) : Bool :=
  (d.qp == .partialHpipm || d.qp == .fullHpipm || d.qp == .fullDaqp) ||
  (if d.N > 0 then
    [d.init.bx.l, d.init.bx.u, d.path.bx.l, d.path.bx.u, d.term.bx.l, d.term.bx.u, d.path.g.l, d.path.g.u,
      d.term.g.l, d.term.g.u, d.path.h.l, d.path.h.u, d.term.h.l, d.term.h.u, d.path.bu.l, d.path.bu.u,
      d.path.phi.l, d.path.phi.u, d.term.phi.l, d.term.phi.u].all finOk
   else
    [d.init.bx.l, d.init.bx.u, d.term.bx.l, d.term.bx.u, d.term.g.l, d.term.g.u, d.term.h.l, d.term.h.u,
      d.term.phi.l, d.term.phi.u].all finOk)

/-- `self.remove_x0_elimination()` for qpDUNES, acados_ocp.py:1183-1184, acados_ocp_constraints.py:1245-1248 -/
def prepare (d : Desc K) : Desc K :=
  if d.qp = .partialQpdunes then { d with init := { d.init with idxbxe := [], hasX0 := false } } else d

/-- numbers of slacks `ns_0`, `ns`, `ns_e` and the description with the filled fields -/
structure Result (K : Type) where
  ns0 : Nat
  ns : Nat
  nse : Nat
  d : Desc K
  deriving DecidableEq

/-- the part of `make_consistent` on constraints, acados_ocp.py:1182-1228; for `N_horizon = 0` the functions of the
initial and the intermediate stages return at once -/
def makeConsistent (d0 : Desc K) : Option (Result K) :=
  let d := prepare d0
  if d.N = 0 then
    if termOk d.nx d.term && mixOk d && revSolverOk d && inftyOk d then
      match (if d.term.rev.idx.isEmpty then slacksTerm d.term else slacksRevTerm d.term) with
      | some (nse, t) => some ⟨0, 0, nse, { d with term := t }⟩
      | none => none
    else none
  else if initOk d.nx d.init && pathOk d.nx d.nu d.path && termOk d.nx d.term && mixOk d && revSolverOk d
      && inftyOk d then
    match (if d.path.rev.idx.isEmpty then slacksPath d.path else slacksRevPath d.path) with
    | none => none
    | some (ns, q) =>
        let nsbu := if d.path.rev.idx.isEmpty then d.path.sbu.idx.length else 0
        let nsg := if d.path.rev.idx.isEmpty then d.path.sg.idx.length else 0
        match (if d.init.rev.idx.isEmpty then slacksInit nsbu nsg ns d.path.pen d.init
               else slacksRevInit d.path d.init) with
        | none => none
        | some (ns0, p) =>
            match (if d.term.rev.idx.isEmpty then slacksTerm d.term else slacksRevTerm d.term) with
            | some (nse, t) => some ⟨ns0, ns, nse, { d with init := p, path := q, term := t }⟩
            | none => none
  else none

/-- the check of the constraints for `nlp_solver_type` `DDP`, acados_ocp.py:1310-1313, after `makeConsistent` -/
def ddpOk (d : Desc K) : Bool :=
  (d.path.bu.idx.length == 0 && d.path.bx.idx.length == 0 && d.path.g.l.length == 0 && d.path.nh == 0
    && d.path.nphi == 0) &&
  (d.term.g.l.length == 0 && d.term.nphi == 0 && d.term.nh == 0)

end

end Acados.OcpDims
