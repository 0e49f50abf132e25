import Verif.Model.ZoroRiccati
import Verif.Spec.Zoro
import Mathlib.Algebra.BigOperators.Intervals
/-!
# Specification of the Riccati feedback gains

The linear-quadratic problem that the gains of the Riccati modes are meant to solve.
-/
namespace Acados.Zoro
open Matrix
variable {K : Type*} [Field K] [LinearOrder K] {d : Dims}

def Pd {n : Nat} (P : Mat K n n) : Prop := ∀ c, c ≠ 0 → 0 < quad P c

/-- `x^T Q x + 2 u^T S x + u^T R u` -/
def lqCost (Q : Mat K d.nx d.nx) (R : Mat K d.nu d.nu) (S : Mat K d.nu d.nx) (x : Fin d.nx → K) (u : Fin d.nu → K) : K :=
  quad Q x + 2 * (u ⬝ᵥ (S *ᵥ x)) + quad R u

/-- exact factorisation and solves -/
def CholOk (ch : Chol K d) : Prop :=
  ∀ M, Sym M → Pd M → ch.potrf M * (ch.potrf M)ᵀ = M ∧
    ∀ Y, ch.potrf M * ch.solveN (ch.potrf M) Y = Y ∧ (ch.potrf M)ᵀ * ch.solveT (ch.potrf M) Y = Y

/-- weight of a constraint with slack `s` (distance of the nominal value from the bound before tightening) and
back-off `b`: `tau / s^2`, respectively `tau / (2 s b)`; no weight with constant cost -/
def barrierWeight (mode : RMode) (tau s b : K) : K :=
  match mode with
  | .const => 0
  | .barrier1 => tau / s ^ 2
  | .barrier2 => tau / (2 * s * b)

/-- the bounds in the QP are those after tightening, relative to the nominal value -/
def slackLo (lo b : K) : K := b - lo
def slackHi (hi b : K) : K := hi + b

/-- stage cost of the feedback problem: the constant quadratic cost and the weighted squares of the changes of the
tightened constraints -/
def ricCost (sq : K → K) (ds : Desc K d) (rd : RDesc K d) (n : Nlp K d) (l : Lin K d) (q : QpB K d)
    (bsq : Nat → Row d → K) (k : Nat) (x : Fin d.nx → K) (u : Fin d.nu → K) : K :=
  lqCost rd.Q rd.R rd.S x u
  + (ds.loT.map fun r =>
      barrierWeight rd.mode rd.tau (slackLo (q.lo k r) (sq (bsq k r))) (sq (bsq k r)) * rowAt n l k 0 x u r ^ 2).sum
  + (ds.hiT.map fun r =>
      barrierWeight rd.mode rd.tau (slackHi (q.hi k r) (sq (bsq k r))) (sq (bsq k r)) * rowAt n l k 0 x u r ^ 2).sum

/-- the same at the end -/
def ricCostE (sq : K → K) (ds : Desc K d) (rd : RDesc K d) (n : Nlp K d) (l : Lin K d) (q : QpB K d)
    (bsq : RowE d → K) (x : Fin d.nx → K) : K :=
  quad rd.Qe x
  + (ds.loTE.map fun r =>
      barrierWeight rd.mode rd.tau (slackLo (q.loE r) (sq (bsq r))) (sq (bsq r)) * rowAtE n l 0 x r ^ 2).sum
  + (ds.hiTE.map fun r =>
      barrierWeight rd.mode rd.tau (slackHi (q.hiE r) (sq (bsq r))) (sq (bsq r)) * rowAtE n l 0 x r ^ 2).sum

/-- trajectories of the linearised dynamics from stage `k` -/
def Dyn (l : Lin K d) (k : Nat) (x : Nat → Fin d.nx → K) (u : Nat → Fin d.nu → K) : Prop :=
  ∀ j, k ≤ j → j < d.N → x (j + 1) = l.A j *ᵥ x j + l.B j *ᵥ u j

/-- cost from stage `k` on -/
def costFrom (st : Nat → (Fin d.nx → K) → (Fin d.nu → K) → K) (te : (Fin d.nx → K) → K) (k : Nat)
    (x : Nat → Fin d.nx → K) (u : Nat → Fin d.nu → K) : K :=
  (∑ j ∈ Finset.Ico k d.N, st j (x j) (u j)) + te (x d.N)

/-- all slacks and back-offs of the tightened constraints are positive -/
def SlackPos (sq : K → K) (ds : Desc K d) (q : QpB K d) (bsq : Nat → Row d → K) (bsqE : RowE d → K) : Prop :=
  (∀ k, 1 ≤ k → k < d.N → (∀ r ∈ ds.loT, 0 < sq (bsq k r) ∧ 0 < slackLo (q.lo k r) (sq (bsq k r)))
    ∧ ∀ r ∈ ds.hiT, 0 < sq (bsq k r) ∧ 0 < slackHi (q.hi k r) (sq (bsq k r)))
  ∧ (∀ r ∈ ds.loTE, 0 < sq (bsqE r) ∧ 0 < slackLo (q.loE r) (sq (bsqE r)))
  ∧ ∀ r ∈ ds.hiTE, 0 < sq (bsqE r) ∧ 0 < slackHi (q.hiE r) (sq (bsqE r))

/-- the constant cost is symmetric and convex, strictly in the input -/
structure CostOk (rd : RDesc K d) : Prop where
  symQ : Sym rd.Q
  symR : Sym rd.R
  symQe : Sym rd.Qe
  psd : ∀ x u, 0 ≤ lqCost rd.Q rd.R rd.S x u
  pd : Pd rd.R
  psdE : Psd rd.Qe
  tau : 0 ≤ rd.tau

/-- The tightened rows the statements are about: no general linear rows (the generated code does not compile with
them); with a barrier no nonlinear rows before the last stage, and terminal bounds on the same states as the path
bounds of the same index. -/
structure RowsFine (ds : Desc K d) (rd : RDesc K d) (n : Nlp K d) : Prop where
  g : ∀ r ∈ ds.loT ++ ds.hiT, r.kind ≠ .g
  gE : ∀ r ∈ ds.loTE ++ ds.hiTE, r.kind ≠ .g
  h : rd.mode ≠ .const → ∀ r ∈ ds.loT ++ ds.hiT, r.kind ≠ .h
  idx : rd.mode ≠ .const → ∀ i : Fin d.nbxe, RowE.bx i ∈ ds.loTE ++ ds.hiTE →
    ∃ h : i < d.nbx, n.idxbx ⟨i, h⟩ = n.idxbxe i

/-- memories that creation and any number of successful updates in a Riccati mode lead to -/
inductive ReachR (sq : K → K) (ch : Chol K d) (ds : Desc K d) (rd : RDesc K d) (n0 : Nlp K d) :
    Mem K d → RMem K d → Prop
  | init (b : K) : ReachR sq ch ds rd n0 (init ds n0 b) (initR ds rd n0)
  | step {m m' rm rm' n n' l q data out} : ReachR sq ch ds rd n0 m rm →
      updateRic sq ch ds rd l q data m rm n = (.ok m' n' out, rm') → ReachR sq ch ds rd n0 m' rm'

end Acados.Zoro
