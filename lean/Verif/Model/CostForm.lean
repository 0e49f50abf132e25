import Verif.Spec.CostForm
/-!
# Reformulation of the cost in the description of an OCP

`/repo/interfaces/acados_template/acados_template/acados_ocp.py`, lines 1731-2016 and 2621-2680.

Simplifications: CasADi expressions are trees (no sparsity, no common subexpressions); `+`/`-`/`@` with operands of different
shape raise, i.e. broadcasting of scalars by CasADi is not modelled; `W` and `yref` of the description are expressions (constants
if they are numerical).  A raised exception is `raised o`, with the description `o` as it is left behind.
-/
namespace Acados.CostForm
variable {K F : Type}

/-- result of a Python method that changes the description -/
inductive Out (α : Type) | ok (a : α) | raised (a : α)

/-- the description afterwards -/
def Out.st {α : Type} : Out α → α
  | .ok a => a
  | .raised a => a

def Out.isOk {α : Type} : Out α → Bool
  | .ok _ => true
  | .raised _ => false

/-- `a - b` of two CasADi expressions -/
def Ex.sub [One K] [Neg K] (a b : Ex K F) : Ex K F := .add a (.mul (.const (-1)) b)

/-- sum of expressions, the inner loop of a CasADi matrix product -/
def sumE [Zero K] : Nat → (Nat → Ex K F) → Ex K F
  | 0, _ => .const 0
  | n + 1, f => .add (sumE n f) (f n)

/-- `ca.substitute(psi, r, res)`: CasADi replaces the symbols of `r` by the entries of `res`, all at once -/
def Ex.substR (res : Nat → Ex K F) : Ex K F → Ex K F
  | .sym (.r i) => res i
  | .sym s => .sym s
  | .const c => .const c
  | .add a b => .add (a.substR res) (b.substR res)
  | .mul a b => .mul (a.substR res) (b.substR res)
  | .fn f a b => .fn f (a.substR res) (b.substR res)

/-- `ca.jacobian(e, s)` for one symbol -/
def Ex.diff [Zero K] [One K] (L : Lang K F) (s : Sym) : Ex K F → Ex K F
  | .const _ => .const 0
  | .sym t => .const (if t = s then 1 else 0)
  | .add a b => .add (a.diff L s) (b.diff L s)
  | .mul a b => .add (.mul (a.diff L s) b) (.mul a (b.diff L s))
  | .fn f a b => .add (.mul (.fn (L.d1 f) a b) (a.diff L s)) (.mul (.fn (L.d2 f) a b) (b.diff L s))

/-- `is_empty`, `utils.py` lines 189-202, for arrays: no entries -/
def Mat.isEmpty {α : Type} (M : Mat α) : Bool := M.rows == 0 || M.cols == 0

/-- `np.zeros((0,0))` -/
def Mat.nil {α : Type} [Zero α] : Mat α := ⟨0, 0, fun _ _ => 0⟩
/-- `np.zeros((0,))`, `[]` -/
def Vec.nil {α : Type} [Zero α] : Vec α := ⟨0, fun _ => 0⟩

instance [Zero K] : Zero (Ex K F) := ⟨.const 0⟩

/-- `V @ s` for a constant matrix and a column of symbols: row `i` -/
def rowE [Zero K] (V : Mat K) (s : Nat → Sym) (n i : Nat) : Ex K F :=
  sumE n fun j => .mul (.const (V.e i j)) (.sym (s j))

/-- `if not is_empty(V): res += ca.sparsify(V) @ s`, lines 1977-1982 -/
def addRow [Zero K] (V : Mat K) (s : Nat → Sym) (n i : Nat) (res : Ex K F) : Ex K F :=
  if V.isEmpty then res else .add res (rowE V s n i)

/-- `0.5 * (res.T @ W @ res)`, lines 1985, 1990 and 1768 -/
def quadE [Field K] (n : Nat) (W : Nat → Nat → Ex K F) (res : Nat → Ex K F) : Ex K F :=
  .mul (.const (1 / 2)) (sumE n fun j => .mul (sumE n fun i => .mul (res i) (W i j)) (res j))

/-- residual of `__translate_ls_cost_to_external_cost`, lines 1974-1983 -/
def lsRes [Field K] (nx nu nz : Nat) (c : SC K F) (yref : Nat → Ex K F) (i : Nat) : Ex K F :=
  (addRow c.Vz .z nz i (addRow c.Vu .u nu i (addRow c.Vx .x nx i (.const 0)))).sub (yref i)

/-- residual of a nonlinear cost, `y_expr - yref`, lines 1989, 1994, 2001 -/
def nlsRes [Field K] (c : SC K F) (yref : Nat → Ex K F) (i : Nat) : Ex K F := (c.y.e i).sub (yref i)

/-- a matrix is empty or has the given shape -/
def Mat.fits {α : Type} (M : Mat α) (n m : Nat) : Bool := M.isEmpty || (M.rows == n && M.cols == m)

/-- the products and sums of `__translate_ls_cost_to_external_cost` have operands of matching shape -/
def lsShapes (nx nu nz : Nat) (c : SC K F) (yref : Vec (Ex K F)) (W : Mat (Ex K F)) : Bool :=
  c.Vx.fits yref.len nx && c.Vu.fits yref.len nu && c.Vz.fits yref.len nz && W.rows == yref.len && W.cols == yref.len

/-- the products and sums of `__translate_nls_cost_to_external_cost` have operands of matching shape -/
def nlsShapes (c : SC K F) (yref : Vec (Ex K F)) (W : Mat (Ex K F)) : Bool :=
  c.y.len == yref.len && W.rows == yref.len && W.cols == yref.len

/-- `vertcat(u, x)` with `u_ = []` for the terminal stage, lines 1934 and 1995 -/
def uxSym (nu : Nat) (i : Nat) : Sym := if i < nu then .u i else .x (i - nu)

/-- `__get_gn_hessian_expression_from_nls_cost`, lines 1992-1998 -/
def gnHess [Field K] (L : Lang K F) (nx nu : Nat) (c : SC K F) (yref : Nat → Ex K F) (W : Mat (Ex K F)) : Mat (Ex K F) :=
  ⟨nu + nx, nu + nx, fun a b => sumE W.rows fun j =>
    .mul (sumE W.rows fun i => .mul ((nlsRes c yref i).diff L (uxSym nu a)) (W.e i j)) ((nlsRes c yref j).diff L (uxSym nu b))⟩

/-- `getattr(self.cost, 'Vu_e', None)`, `getattr(self.cost, 'Vz_e', None)`, lines 1914-1918: not present at the terminal stage -/
def SC.atStage [Zero K] (c : SC K F) (st : Stage) : SC K F :=
  if st = .terminal then { c with Vu := .nil, Vz := .nil } else c

/-- `_translate_cost_term_to_external`, lines 1871-1972 (the initial test of `cost_hessian` cannot fail here).  The last branch
covers EXTERNAL and AUTO, for which only the type is set.  `nu` is the number of inputs of the model -/
def translateTerm [Field K] (L : Lang K F) (nx nu nz : Nat) (st : Stage) (yref? : Option (Vec (Ex K F)))
    (W? : Option (Mat (Ex K F))) (h : HessKind) (c : SC K F) : Out (SC K F) :=
  if h = .gaussNewton ∧ ¬ (c.kind = some .linearLs ∨ c.kind = some .nonlinearLs ∨ (st = .initial ∧ c.kind = none)) then .raised c
  else if yref?.any (fun y => y.len != c.yref.len) then .raised c
  else if W?.any (fun W => W.rows != c.W.rows || W.cols != c.W.cols) then .raised c
  else
    let yref := yref?.getD c.yref
    let W := W?.getD c.W
    match c.kind with
    | none => .ok c
    | some .linearLs =>
      if lsShapes nx nu nz (c.atStage st) yref W then
        .ok { c with
          kind := some .external
          ext := some (quadE yref.len W.e (lsRes nx nu nz (c.atStage st) yref.e))
          Vx := .nil, Vu := .nil, Vz := .nil, W := .nil, yref := .nil, y := .nil }
      else .raised c
    | some .nonlinearLs =>
      if nlsShapes c yref W then
        .ok { c with
          kind := some .external
          ext := some (quadE yref.len W.e (nlsRes c yref.e))
          hess := if h = .gaussNewton then some (gnHess L nx (if st = .terminal then 0 else nu) c yref.e W) else c.hess
          W := .nil, yref := .nil, y := .nil }
      else .raised c
    | some .conl =>
      match c.psi with
      | none => .raised c
      | some ψ =>
        if c.y.len == yref.len && c.nr == yref.len then
          .ok { c with
            kind := some .external
            ext := some (ψ.substR (nlsRes c yref.e))
            nr := 0, psi := none, y := .nil, yref := .nil }
        else .raised c
    | some .external => .ok { c with kind := some .external }
    | some .auto => .ok { c with kind := some .external }

/-- `translate_cost_to_external_cost`, lines 1826-1838: append stagewise parameters.  (Types of the symbols and the shape `(n,1)`
of the values are not modelled.) -/
def addStagewise (p : AddP K) (o : Ocp K F) : Out (Ocp K F) :=
  match p with
  | none => .ok o
  | some (_, none) => .raised o
  | some (n, some vs) => if n = vs.length then .ok { o with np := o.np + n, pVals := o.pVals ++ vs } else .raised o

/-- lines 1840-1851: append global parameters -/
def addGlobal (p : AddP K) (o : Ocp K F) : Out (Ocp K F) :=
  match p with
  | none => .ok o
  | some (_, none) => .raised o
  | some (n, some vs) =>
    if n = vs.length then .ok { o with npGlobal := o.npGlobal + n, pGlobalVals := o.pGlobalVals ++ vs } else .raised o

/-- lines 1826-1851 -/
def addParams (p pg : AddP K) (o : Ocp K F) : Out (Ocp K F) :=
  match addStagewise p o with
  | .raised o => .raised o
  | .ok o => addGlobal pg o

/-- references and weights given for one term -/
structure TermArg (K F : Type) where
  yref : Option (Vec (Ex K F)) := none
  W : Option (Mat (Ex K F)) := none

/-- `translate_cost_to_external_cost`, lines 1799-1857.  At the terminal stage `Vu_e`, `Vz_e` do not exist -/
def translateCost [Field K] (L : Lang K F) (p pg : AddP K) (a0 ap ae : TermArg K F) (h : HessKind) (o : Ocp K F) : Out (Ocp K F) :=
  match addParams p pg o with
  | .raised o => .raised o
  | .ok o => match translateTerm L o.nx o.nu o.nz .initial a0.yref a0.W h o.c0 with
    | .raised c => .raised { o with c0 := c }
    | .ok c0 =>
      let o := { o with c0 := c0 }
      match translateTerm L o.nx o.nu o.nz .path ap.yref ap.W h o.cp with
      | .raised c => .raised { o with cp := c }
      | .ok cp =>
        let o := { o with cp := cp }
        match translateTerm L o.nx o.nu o.nz .terminal ae.yref ae.W h o.ce with
        | .raised c => .raised { o with ce := c }
        | .ok ce => .ok { o with ce := ce }

/-- one stage of `translate_nls_cost_to_conl`, lines 1757-1769: a new symbol for the residual -/
def toConlTerm [Field K] (c : SC K F) : SC K F :=
  { c with
    kind := some .conl
    nr := c.y.len
    psi := some (quadE c.y.len c.W.e (fun i => .sym (.r i))) }

/-- a number -/
def Ex.isConst : Ex K F → Bool
  | .const _ => true
  | _ => false

/-- `ca.DM(W)` needs numbers -/
def Mat.isNumeric (W : Mat (Ex K F)) : Bool :=
  (List.range W.rows).all fun i => (List.range W.cols).all fun j => (W.e i j).isConst

/-- the cases of one stage; at the initial stage `None` is skipped, lines 1757-1770.  `W` must be
numerical and match the residual in length; otherwise the type has been changed already when the exception is raised -/
def nlsToConl [Field K] (st : Stage) (c : SC K F) : Out (SC K F) :=
  match c.kind with
  | none => if st = .initial then .ok c else .raised c
  | some .conl => .ok c
  | some .nonlinearLs => if c.W.rows == c.y.len && c.W.cols == c.y.len && c.W.isNumeric then .ok (toConlTerm c) else
      .raised { c with kind := some .conl, nr := c.y.len }
  | some .linearLs => .raised c
  | some .external => .raised c
  | some .auto => .raised c

/-- `translate_nls_cost_to_conl`, lines 1751-1796 -/
def translateConl [Field K] (o : Ocp K F) : Out (Ocp K F) :=
  match nlsToConl .initial o.c0 with
  | .raised c => .raised { o with c0 := c }
  | .ok c0 =>
    let o := { o with c0 := c0 }
    match nlsToConl .path o.cp with
    | .raised c => .raised { o with cp := c }
    | .ok cp =>
      let o := { o with cp := cp }
      match nlsToConl .terminal o.ce with
      | .raised c => .raised { o with ce := c }
      | .ok ce => .ok { o with ce := ce }

/-- `copy_path_cost_to_stage_0`, lines 1731-1749: every field but the custom Hessian of `ψ` -/
def copyPath (o : Ocp K F) : Ocp K F :=
  { o with c0 := { o.cp with outer := o.c0.outer } }

/-- the products and sums of `_get_cost_expression` for LINEAR_LS have operands of matching shape -/
def getShapes (nx nu nz : Nat) (st : Stage) (c : SC K F) (yref : Vec (Ex K F)) : Bool :=
  c.Vx.rows == yref.len && c.Vx.cols == nx && c.W.rows == yref.len && c.W.cols == yref.len
    && (st = .terminal || ((c.Vu.rows == yref.len && c.Vu.cols == nu) && (nz == 0 || (c.Vz.rows == yref.len && c.Vz.cols == nz))))

/-- `_get_cost_expression`, lines 2621-2668; `none` for `Unknown cost type` and for missing or mismatching expressions -/
def getExpr [Field K] (nx nu nz : Nat) (st : Stage) (yref? : Option (Vec (Ex K F))) (c : SC K F) : Option (Ex K F) :=
  let yref := yref?.getD c.yref
  match c.kind with
  | some .linearLs =>
    if c.Vx.isEmpty then some (.const 0)
    else
      let y : Nat → Ex K F := fun i =>
        if st = .terminal then rowE c.Vx .x nx i
        else if nz = 0 then .add (rowE c.Vx .x nx i) (rowE c.Vu .u nu i)
        else .add (.add (rowE c.Vx .x nx i) (rowE c.Vu .u nu i)) (rowE c.Vz .z nz i)
      if getShapes nx nu nz st c yref then some (quadE yref.len c.W.e fun i => (y i).sub (yref.e i)) else none
  | some .nonlinearLs => if nlsShapes c yref c.W then some (quadE yref.len c.W.e (nlsRes c yref.e)) else none
  | some .external => c.ext
  | some .conl => c.psi.map fun ψ => ψ.substR c.y.e
  | some .auto => none
  | none => none

end Acados.CostForm
