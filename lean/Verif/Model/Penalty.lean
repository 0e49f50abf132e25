import Verif.Spec.Penalty
import Verif.Model.CostForm
/-!
# Constraints as penalties

`/repo/interfaces/acados_template/acados_template/penalty_utils.py` and `acados_ocp.py` lines 2017-2396.

Simplifications: constraints are scalar (as in the callers in this repository); names of residuals are not modelled, every call
of the code creates a new CasADi symbol, here the next argument of `ψ`; numbers are elements of an ordered field, a division by
zero is an unspecified value.
-/
namespace Acados.Penalty
open Acados.CostForm
variable {K : Type} [Field K] [LinearOrder K]

/-- `huber_loss`, `penalty_utils.py` lines 33-41 -/
def huberLoss (τ δ v : K) : K := (τ / δ) * (if |v| < δ then (1 / 2) * v ^ 2 else δ * (|v| - (1 / 2) * δ))

/-- its gradient (line 42), branch by branch -/
def huberGrad (τ δ v : K) : K := (τ / δ) * (if |v| < δ then v else δ * (if 0 < v then 1 else if v < 0 then -1 else 0))

/-- its Hessian (line 42) -/
def huberHess (τ δ v : K) : K := (τ / δ) * (if |v| < δ then 1 else 0)

/-- the XGN Hessian, line 43 -/
def huberXgn (τ δ v : K) : K := if v = 0 then huberHess τ δ v else huberGrad τ δ v / v

/-- the penalty before the value at 0 is subtracted, line 78 -/
def oneRaw (τ δ u : K) : K := (1 / 2) * (huberLoss τ δ (u - δ) + τ * u)

/-- `one_sided_huber_penalty` with `w`: value, lines 71-81 -/
def oneSided (w δ u : K) : K := oneRaw (2 * w * δ) δ u - oneRaw (2 * w * δ) δ 0

/-- Hessian of the penalty and its lower limit, lines 83-89 -/
def oneHess (w δ mh u : K) : K :=
  let h := (1 / 2) * huberHess (2 * w * δ) δ (u - δ)
  if 0 < mh then max mh h else h

/-- XGN Hessian of the penalty, lines 85-89 -/
def oneXgn (w δ mh u : K) : K :=
  let h := (1 / 2) * huberXgn (2 * w * δ) δ (u - δ)
  if 0 < mh then max mh h else h

/-- lines 128-134 -/
def symRaw (τ δ u : K) : K :=
  (1 / 2) * (huberLoss τ δ (u - (1 + δ)) + huberLoss τ δ (u + (1 + δ)))
    + (1 / 2) * (-huberLoss τ δ (-(1 + δ)) - huberLoss τ δ (1 - δ))

/-- `symmetric_huber_penalty` with `w`: value, lines 115-137 -/
def symmetric (w δ u : K) : K := symRaw (2 * w * δ) δ u - symRaw (2 * w * δ) δ 0

/-- Hessian, lines 139 and 147-149 -/
def symHess (w δ mh u : K) : K :=
  let h := (1 / 2) * (huberHess (2 * w * δ) δ (u - (1 + δ)) + huberHess (2 * w * δ) δ (u + (1 + δ)))
  if 0 < mh then max mh h else h

/-- XGN Hessian, lines 141-149 -/
def symXgn (w δ mh u : K) : K :=
  let h := (1 / 2) * (if u < 0 then huberXgn (2 * w * δ) δ (u + 1 + δ) else huberXgn (2 * w * δ) δ (u - 1 - δ))
  if 0 < mh then max mh h else h

/-- the function symbols mean these functions; a quotient with denominator 0 may be anything -/
structure Means (L : Lang K (Fn K)) : Prop where
  fmax : ∀ a b, L.I .fmax a b = max a b
  div : ∀ a b, b ≠ 0 → L.I .div a b = a / b
  one : ∀ w δ, δ ≠ 0 → ∀ u b, L.I (.one w δ) u b = oneSided w δ u
  sym : ∀ w δ, δ ≠ 0 → ∀ u b, L.I (.sym w δ) u b = symmetric w δ u
  oneXgn : ∀ w δ mh, δ ≠ 0 → ∀ u b, L.I (.oneXgn w δ mh) u b = oneXgn w δ mh u
  symXgn : ∀ w δ mh, δ ≠ 0 → ∀ u b, L.I (.symXgn w δ mh) u b = symXgn w δ mh u
  oneHess : ∀ w δ mh, δ ≠ 0 → ∀ u b, L.I (.oneHess w δ mh) u b = oneHess w δ mh u
  symHess : ∀ w δ mh, δ ≠ 0 → ∀ u b, L.I (.symHess w δ mh) u b = symHess w δ mh u

abbrev E (K : Type) := Ex K (Fn K)

/-- `ca.vertcat(v, e)` -/
def Vec.push {α : Type} (v : Vec α) (e : α) : Vec α := ⟨v.len + 1, fun i => if i = v.len then e else v.e i⟩

/-- `block_diag(W, w)` and `blockcat(W, 0, 0, w)` -/
def blockDiag (W : Mat (E K)) (w : E K) : Mat (E K) :=
  ⟨W.rows + 1, W.cols + 1, fun i j =>
    if i = W.rows ∧ j = W.cols then w else if i < W.rows ∧ j < W.cols then W.e i j else .const 0⟩

/-- `_add_L2_penalty_stage`, `acados_ocp.py` lines 2017-2066; the first two assignments are made for every cost type -/
def addL2 (viol : E K) (w : K) (c : SC K (Fn K)) : Out (SC K (Fn K)) :=
  let c := { c with
    yref := Vec.push c.yref (.const 0)
    y := Vec.push c.y viol }
  match c.kind with
  | some .nonlinearLs => .ok { c with W := blockDiag c.W (.const w) }
  | some .conl =>
    let new : E K := .mul (.const (1 / 2 * w)) (.mul (.sym (.r c.nr)) (.sym (.r c.nr)))
    .ok { c with
      nr := c.nr + 1
      psi := some (match c.psi with
        | some ψ => .add ψ new
        | none => new) }
  | some .external =>
    let new : E K := .mul (.const (1 / 2 * w)) (.mul viol viol)
    .ok { c with
      ext := some (match c.ext with
        | some e => .add e new
        | none => new) }
  | some .linearLs => .raised c
  | some .auto => .raised c
  | none => .raised c

/-- `upper_bound < lower_bound` for numbers; symbolic bounds occur only with both bounds the same parameter -/
def exLt : E K → E K → Bool
  | .const a, .const b => decide (a < b)
  | _, _ => false

/-- the violation, lines 2091-2095 -/
def violE (e : E K) (ub lb : Option (E K)) : E K :=
  let v0 : E K := .const 0
  let v1 : E K := match ub with
    | some u => .fn .fmax v0 (e.sub u)
    | none => v0
  match lb with
  | some l => .fn .fmax v1 (l.sub e)
  | none => v1

/-- `formulate_constraint_as_L2_penalty`, lines 2069-2103, for the cost term of the stage -/
def formulateL2 (e : E K) (w : K) (ub lb : Option (E K)) (c : SC K (Fn K)) : Out (SC K (Fn K)) :=
  match ub, lb with
  | none, none => .raised c
  | some u, some l => if exLt u l then .raised c else addL2 (violE e (some u) (some l)) w c
  | ub, lb => addL2 (violE e ub lb) w c

/-- `ca.hessian(psi, r)[0]`, line 2166 -/
def exactOuter (L : Lang K (Fn K)) (ψ : E K) (n : Nat) : Mat (E K) :=
  ⟨n, n, fun i j => (ψ.diff L (.r i)).diff L (.r j)⟩

/-- what the three cases of lines 2172-2191 compute: the new residual, the penalty and its Hessians as functions of the new
argument; the functions of `penalty_utils.py` raise for negative `δ` (lines 66, 110), and `tau / delta` (line 38) raises
`ZeroDivisionError` for `δ = 0` -/
def huberTerm (e : E K) (w : K) (ub lb : Option K) (δ mh : K) (nr : Nat) : Option (E K × E K × E K × E K) :=
  let r : E K := .sym (.r nr)
  match ub, lb with
  | some u, some l =>
    if u < l then none
    else if δ ≤ 0 then none
    else
      let width := u - l
      let center := l + 1 / 2 * width
      some (.fn .div (.mul (.const 2) (e.sub (.const center))) (.const width),
        .fn (.sym (w * width ^ 2) δ) r (.const 0), .fn (.symHess (w * width ^ 2) δ mh) r (.const 0),
        .fn (.symXgn (w * width ^ 2) δ mh) r (.const 0))
  | some u, none =>
    if δ ≤ 0 then none
    else some (e.sub (.const u), .fn (.one w δ) r (.const 0), .fn (.oneHess w δ mh) r (.const 0), .fn (.oneXgn w δ mh) r (.const 0))
  | none, some _ => none
  | none, none => none

/-- lines 2164-2167: start a custom Hessian with the exact one -/
def huberPrep (L : Lang K (Fn K)) (xgn : Bool) (c : SC K (Fn K)) : SC K (Fn K) :=
  match c.outer, c.psi with
  | none, some ψ => if xgn then { c with outer := some (exactOuter L ψ c.nr) } else c
  | _, _ => c

/-- `formulate_constraint_as_Huber_penalty`, lines 2106-2140, and `_add_Huber_penalty_stage`, lines 2143-2220 -/
def formulateHuber (L : Lang K (Fn K)) (e : E K) (w : K) (ub lb : Option K) (δ : K) (xgn : Bool) (mh : K) (c : SC K (Fn K)) :
    Out (SC K (Fn K)) :=
  if ub = none ∧ lb = none then .raised c
  else if c.kind ≠ some .conl then .raised c
  else
    let c := huberPrep L xgn c
    match huberTerm e w ub lb δ mh c.nr with
    | none => .raised c
    | some (res, pen, hess, hx) =>
      .ok { c with
        nr := c.nr + 1
        psi := some (match c.psi with
          | some ψ => .add ψ pen
          | none => pen)
        y := Vec.push c.y res
        yref := Vec.push c.yref (.const 0)
        outer := match c.outer with
          | some H => some (blockDiag H (if xgn then hx else hess))
          | none => if xgn then some ⟨1, 1, fun _ _ => hx⟩ else none }

/-- a loop of `translate_to_feasibility_problem` over a list of constraints, lines 2303-2305, 2320-2322, 2348-2350 -/
def penaliseAll : List (Con K) → SC K (Fn K) → Out (SC K (Fn K))
  | [], c => .ok c
  | k :: ks, c => match formulateL2 k.e 1 (some k.ub) (some k.lb) c with
    | .raised c => .raised c
    | .ok c => penaliseAll ks c

/-- constraints of the description: path, terminal and initial (the initial stage shares the bounds on inputs of the path) -/
structure Cons (K : Type) where
  path : StageCons K
  term : StageCons K
  init : StageCons K
  hasX0 : Bool

def StageCons.nil : StageCons K := ⟨[], [], [], [], fun _ => .const 0, []⟩

/-- a zero cost, lines 2274-2290 -/
def zeroCost (c : SC K (Fn K)) : SC K (Fn K) :=
  { c with kind := some .nonlinearLs, yref := .nil, y := .nil, W := .nil }

/-- `ca.substitute(con_phi_expr, con_r_in_phi, con_r_expr)`, lines 2299, 2315, 2344 -/
def phiList (s : StageCons K) : List (Con K) := s.phi.map fun c => { c with e := c.e.substR s.r }

/-- parameters for the initial state, lines 2334-2340: bounds `p_n, p_{n+1}, …` -/
def paramBounds (n : Nat) (l : List (Con K)) : List (Con K) :=
  l.zipIdx.map fun ci => { ci.1 with lb := .sym (.p (n + ci.2)), ub := .sym (.p (n + ci.2)) }

structure Prob (K : Type) where
  o : Ocp K (Fn K)
  cons : Cons K

/-- `constraints.lbx_0` as new values of parameters, line 2337 -/
def lbVals (L : Lang K (Fn K)) (l : List (Con K)) : List K := l.map fun c => c.lb.eval L fun _ => 0

/-- `remove_all_constraints`, lines 2356-2384 -/
def removeAll (keepX0 : Bool) (k : Cons K) : Cons K :=
  { path := .nil, term := .nil, init := { (StageCons.nil : StageCons K) with bx := if keepX0 then k.init.bx else [] }
    hasX0 := keepX0 }

/-- `translate_to_feasibility_problem`, lines 2248-2353.  (With `keep_x0` or `parametric_x0` and without an initial state
constraint the exception is raised after path and terminal stage.) -/
def feasibility (L : Lang K (Fn K)) (keepX0 keepCost paramX0 : Bool) (P : Prob K) : Out (Prob K) :=
  let o : Ocp K (Fn K) :=
    if keepCost then (if P.o.c0.kind = none then copyPath P.o else P.o)
    else { P.o with c0 := zeroCost P.o.c0, cp := zeroCost P.o.cp, ce := zeroCost P.o.ce }
  match penaliseAll (P.cons.path.bx ++ P.cons.path.bu ++ P.cons.path.h ++ phiList P.cons.path) o.cp with
  | .raised c => .raised ⟨{ o with cp := c }, P.cons⟩
  | .ok cp =>
    let o := { o with cp := cp }
    match penaliseAll (P.cons.term.bx ++ P.cons.term.h ++ phiList P.cons.term) o.ce with
    | .raised c => .raised ⟨{ o with ce := c }, P.cons⟩
    | .ok ce =>
      let o := { o with ce := ce }
      if (keepX0 || paramX0) && !P.cons.hasX0 then .raised ⟨o, P.cons⟩
      else if paramX0 && keepX0 then .raised ⟨o, P.cons⟩
      else
        let n := o.np
        let o := if paramX0 then { o with np := n + P.cons.init.bx.length, pVals := o.pVals ++ lbVals L P.cons.init.bx } else o
        let bx := if paramX0 then paramBounds n P.cons.init.bx else P.cons.init.bx
        match penaliseAll (P.cons.path.bu ++ P.cons.init.h ++ bx ++ phiList P.cons.init) o.c0 with
        | .raised c => .raised ⟨{ o with c0 := c }, P.cons⟩
        | .ok c0 => .ok ⟨{ o with c0 := c0 }, removeAll keepX0 P.cons⟩

/-- `augment_with_t0_param`, lines 2386-2396 (without an existing `t0`) -/
def augmentT0 (o : Ocp K (Fn K)) : Ocp K (Fn K) :=
  { o with np := o.np + 1, pVals := o.pVals ++ [0], pGlobalVals := o.pGlobalVals ++ [0] }

end Acados.Penalty
