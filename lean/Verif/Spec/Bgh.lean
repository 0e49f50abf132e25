import Verif.Model.Bgh
/-!
# Specification vocabulary for the stage constraints

What a user means by "the value last written to a field" and by "the stage constraints hold".  Nothing
here refers to offsets in the stacked vectors or to the evaluation code.
-/
namespace Acados.Bgh
open Finset

/-! ## Last write wins -/

section
variable {D : Type*}

/-- the value a write gives to field `f`, if it writes `f`.  `ls` (`us`) is the concatenation of `lsbu`,
`lsbx`, `lsg`, `lsh` (`usbu`, ...) -/
def Write.valueOf (dm : Dims) (f : VF) : Write D → Option (Nat → D)
  | .vec .ls v =>
    match f with
    | .ls => some v
    | .lsbu => some v
    | .lsbx => some fun i => v (dm.nsbu + i)
    | .lsg => some fun i => v (dm.nsbu + dm.nsbx + i)
    | .lsh => some fun i => v (dm.nsbu + dm.nsbx + dm.nsg + i)
    | _ => none
  | .vec .us v =>
    match f with
    | .us => some v
    | .usbu => some v
    | .usbx => some fun i => v (dm.nsbu + i)
    | .usg => some fun i => v (dm.nsbu + dm.nsbx + i)
    | .ush => some fun i => v (dm.nsbu + dm.nsbx + dm.nsg + i)
    | _ => none
  | .vec g v => if f = g then some v else none
  | _ => none

/-- the value of field `f` after the history `ws` (oldest first), initially `v0` -/
def lastVec (dm : Dims) (f : VF) (v0 : Nat → D) (ws : List (Write D)) : Nat → D :=
  ws.foldl (fun v w => (w.valueOf dm f).getD v) v0

/-- same for the integer fields -/
def lastInt (f : IF) (v0 : Nat → Int) (ws : List (Write D)) : Nat → Int :=
  ws.foldl (fun v w => match w with
    | .int g v' => if f = g then v' else v
    | _ => v) v0

/-- same for `idxs_rev` -/
def lastRev (v0 : Nat → Int) (ws : List (Write D)) : Nat → Int :=
  ws.foldl (fun v w => match w with
    | .idxsRev v' => v'
    | _ => v) v0

/-- same for the matrices -/
def lastC (v0 : Nat → Nat → D) (ws : List (Write D)) : Nat → Nat → D :=
  ws.foldl (fun v w => match w with
    | .C v' => v'
    | _ => v) v0
def lastD (v0 : Nat → Nat → D) (ws : List (Write D)) : Nat → Nat → D :=
  ws.foldl (fun v w => match w with
    | .D v' => v'
    | _ => v) v0

/-- has `idxs_rev` been written? -/
def usesRev (ws : List (Write D)) : Prop := ∃ v, Write.idxsRev v ∈ ws
end

/-- Which vector fields have a meaning of their own.  The slack bounds are either given group by group
(then the group sizes add up to `ns`), or all at once as `ls`, `us` (then no group sizes are set).
`precompute` enforces this (bgh.c:1685-1719). -/
def VF.Meaningful (dm : Dims) : VF → Prop
  | .ls | .us => dm.nsDerived = 0
  | .lsbu | .lsbx | .lsg | .lsh | .usbu | .usbx | .usg | .ush => dm.ns = dm.nsDerived ∨ dm.nsDerived = 0
  | _ => True

/-! ## The stage constraints -/

/-- the constraint data of one stage as the user sees it -/
structure StageData (K : Type*) where
  idxbu : Nat → Nat
  idxbx : Nat → Nat
  lbu : Nat → K
  ubu : Nat → K
  lbx : Nat → K
  ubx : Nat → K
  C : Nat → Nat → K
  D : Nat → Nat → K
  lg : Nat → K
  ug : Nat → K
  lh : Nat → K
  uh : Nat → K
  ls : Nat → K
  us : Nat → K

/-- a point of the stage: controls, states, lower and upper slacks -/
structure Point (K : Type*) where
  u : Nat → K
  x : Nat → K
  sl : Nat → K
  su : Nat → K

section
variable {K : Type*} [Field K] [LinearOrder K]

/-- "`lo ≤ v`, unless `lo` is at or beyond -1e10" -/
def LowerOk (lo v : K) : Prop := -10000000000 < lo → lo ≤ v
/-- "`v ≤ up`, unless `up` is at or beyond 1e10" -/
def UpperOk (up v : K) : Prop := up < 10000000000 → v ≤ up

/-- the stage constraints at a point, where `rl i` (`ru i`) is the relaxation of the lower (upper) side
of two-sided constraint number `i`, counting bounds on u, bounds on x, general, nonlinear -/
def StageOk (dm : Dims) (s : StageData K) (h : Nat → K) (rl ru : Nat → K) (p : Point K) : Prop :=
  (∀ i < dm.nbu, LowerOk (s.lbu i) (p.u (s.idxbu i) + rl i) ∧
                 UpperOk (s.ubu i) (p.u (s.idxbu i) - ru i)) ∧
  (∀ i < dm.nbx, LowerOk (s.lbx i) (p.x (s.idxbx i) + rl (dm.nbu + i)) ∧
                 UpperOk (s.ubx i) (p.x (s.idxbx i) - ru (dm.nbu + i))) ∧
  (∀ j < dm.ng,
    let g := (∑ k ∈ range dm.nx, s.C j k * p.x k) + ∑ k ∈ range dm.nu, s.D j k * p.u k
    LowerOk (s.lg j) (g + rl (dm.nbu + dm.nbx + j)) ∧ UpperOk (s.ug j) (g - ru (dm.nbu + dm.nbx + j))) ∧
  (∀ j < dm.nh, LowerOk (s.lh j) (h j + rl (dm.nbu + dm.nbx + dm.ng + j)) ∧
                UpperOk (s.uh j) (h j - ru (dm.nbu + dm.nbx + dm.ng + j))) ∧
  (∀ k < dm.ns, LowerOk (s.ls k) (p.sl k) ∧ LowerOk (s.us k) (p.su k))

/-- relaxation of constraint `i` when slack `k` belongs to constraint `idxs k` -/
def relaxByIdxs (ns : Nat) (idxs : Nat → Int) (s : Nat → K) (i : Nat) : K :=
  ∑ k ∈ range ns, if idxs k = (i : Int) then s k else 0

/-- relaxation of constraint `i` when its slack is `rev i` (none if negative) -/
def relaxByRev (rev : Nat → Int) (s : Nat → K) (i : Nat) : K :=
  if 0 ≤ rev i then s (rev i).toNat else 0

end

section
variable {K : Type*} [Field K]

/-- index maps that address existing entries -/
structure ValidMaps (dm : Dims) (m : Model K) (rev : Nat → Int) : Prop where
  idxb : ∀ i < dm.nb, 0 ≤ m.idxb i ∧ m.idxb i < dm.nu + dm.nx
  idxs : m.useIdxsRev = false → ∀ k < dm.ns, 0 ≤ m.idxs k ∧ m.idxs k < dm.ni
  rev : m.useIdxsRev = true → ∀ i < dm.ni, rev i < dm.ns

/-- the constraint values with the nonlinear part replaced by its linearisation -/
def linEval (dm : Dims) (m : Model K) (DCt : Nat → Nat → K) (h0 : Nat → K) (ux : Nat → K) : Nat → K :=
  constrEval dm m DCt (fun j => h0 j + ∑ r ∈ range (dm.nu + dm.nx), DCt r (dm.ng + j) * ux r) ux

/-- the slack bounds after a history: group by group, or all at once when there are no groups -/
def lastLs (dm : Dims) (ws : List (Write K)) (k : Nat) : K :=
  if dm.nsDerived = 0 then lastVec dm .ls (fun _ => 0) ws k
  else if k < dm.nsbu then lastVec dm .lsbu (fun _ => 0) ws k
  else if k < dm.nsbu + dm.nsbx then lastVec dm .lsbx (fun _ => 0) ws (k - dm.nsbu)
  else if k < dm.nsbu + dm.nsbx + dm.nsg then lastVec dm .lsg (fun _ => 0) ws (k - (dm.nsbu + dm.nsbx))
  else lastVec dm .lsh (fun _ => 0) ws (k - (dm.nsbu + dm.nsbx + dm.nsg))
def lastUs (dm : Dims) (ws : List (Write K)) (k : Nat) : K :=
  if dm.nsDerived = 0 then lastVec dm .us (fun _ => 0) ws k
  else if k < dm.nsbu then lastVec dm .usbu (fun _ => 0) ws k
  else if k < dm.nsbu + dm.nsbx then lastVec dm .usbx (fun _ => 0) ws (k - dm.nsbu)
  else if k < dm.nsbu + dm.nsbx + dm.nsg then lastVec dm .usg (fun _ => 0) ws (k - (dm.nsbu + dm.nsbx))
  else lastVec dm .ush (fun _ => 0) ws (k - (dm.nsbu + dm.nsbx + dm.nsg))

/-- the stage data a user has specified by the history `ws`; `ibu`, `ibx`, `C0`, `D0` stand for fields
never written (bounds never written are zero) -/
def stageData (dm : Dims) (ibu ibx : Nat → Int) (C0 D0 : Nat → Nat → K) (ws : List (Write K)) :
    StageData K where
  idxbu := fun i => (lastInt .idxbu ibu ws i).toNat
  idxbx := fun i => (lastInt .idxbx ibx ws i).toNat
  lbu := lastVec dm .lbu (fun _ => 0) ws
  ubu := lastVec dm .ubu (fun _ => 0) ws
  lbx := lastVec dm .lbx (fun _ => 0) ws
  ubx := lastVec dm .ubx (fun _ => 0) ws
  C := lastC C0 ws
  D := lastD D0 ws
  lg := lastVec dm .lg (fun _ => 0) ws
  ug := lastVec dm .ug (fun _ => 0) ws
  lh := lastVec dm .lh (fun _ => 0) ws
  uh := lastVec dm .uh (fun _ => 0) ws
  ls := lastLs dm ws
  us := lastUs dm ws

/-- the stacked vector `ux` of the solver holds the point: controls, states, lower, upper slacks -/
structure Stacks (dm : Dims) (ux : Nat → K) (p : Point K) : Prop where
  u : ∀ k < dm.nu, ux k = p.u k
  x : ∀ k < dm.nx, ux (dm.nu + k) = p.x k
  sl : ∀ k < dm.ns, ux (dm.nu + dm.nx + k) = p.sl k
  su : ∀ k < dm.ns, ux (dm.nu + dm.nx + dm.ns + k) = p.su k

/-- the user's index lists address existing controls and states -/
structure GoodIdx (dm : Dims) (ibu ibx : Nat → Int) (ws : List (Write K)) : Prop where
  bu : ∀ i < dm.nbu, 0 ≤ lastInt .idxbu ibu ws i ∧ lastInt .idxbu ibu ws i < dm.nu
  bx : ∀ i < dm.nbx, 0 ≤ lastInt .idxbx ibx ws i ∧ lastInt .idxbx ibx ws i < dm.nx

end
end Acados.Bgh
