import Verif.Spec.CostForm
import Mathlib.Algebra.Order.Field.Basic
import Mathlib.Algebra.Order.AbsoluteValue.Basic
import Mathlib.Algebra.Order.Ring.Abs
/-!
# Constraints as penalties: what the penalty terms should be
-/
namespace Acados.Penalty
open Acados.CostForm
variable {K : Type} [Field K] [LinearOrder K] [IsStrictOrderedRing K]

/-- a two-sided, one-sided or missing restriction of a number -/
def Holds (lb ub : Option K) (t : K) : Prop := (∀ l, lb = some l → l ≤ t) ∧ ∀ u, ub = some u → t ≤ u

/-- `d` is the distance of `t` to the numbers that meet the bounds -/
def IsDist (lb ub : Option K) (t d : K) : Prop :=
  (∃ s, Holds lb ub s ∧ |t - s| = d) ∧ ∀ s, Holds lb ub s → d ≤ |t - s|

/-- Huber penalty of a distance: quadratic with Hessian `w` up to `2δ`, then linear with slope `2wδ` -/
def huberOf (w δ d : K) : K := if d ≤ 2 * δ then w / 2 * d ^ 2 else 2 * w * δ * (d - δ)

/-- function symbols used by the penalties -/
inductive Fn (K : Type)
  | fmax
  | div
  /-- Huber penalties of `penalty_utils.py` and their two Hessians; parameters `w`, `δ`, `min_hess` -/
  | one (w δ : K) | oneHess (w δ mh : K) | oneXgn (w δ mh : K)
  | sym (w δ : K) | symHess (w δ mh : K) | symXgn (w δ mh : K)
  | other (n : Nat)

/-- a constraint on an expression; bounds are numbers or parameters -/
structure Con (K : Type) where
  e : Ex K (Fn K)
  lb : Ex K (Fn K)
  ub : Ex K (Fn K)

/-- the constraint is met at given values -/
def Con.Met (c : Con K) (L : Lang K (Fn K)) (v : Env K) : Prop :=
  c.lb.eval L v ≤ c.e.eval L v ∧ c.e.eval L v ≤ c.ub.eval L v

/-- constraints of one stage: bounds on states and inputs, nonlinear constraints, convex-over-nonlinear constraints `φ(r)` with the
expressions for `r`, general linear constraints -/
structure StageCons (K : Type) where
  bx : List (Con K)
  bu : List (Con K)
  h : List (Con K)
  phi : List (Con K)
  r : Nat → Ex K (Fn K)
  g : List (Con K)

/-- the values at which `φ` is evaluated -/
def Con.MetPhi (c : Con K) (L : Lang K (Fn K)) (r : Nat → Ex K (Fn K)) (v : Env K) : Prop :=
  c.lb.eval L v ≤ c.e.eval L (v.withR fun i => (r i).eval L v) ∧ c.e.eval L (v.withR fun i => (r i).eval L v) ≤ c.ub.eval L v

/-- all constraints of a stage but the general linear ones -/
def StageCons.MetButG (s : StageCons K) (L : Lang K (Fn K)) (v : Env K) : Prop :=
  (∀ c ∈ s.bx, c.Met L v) ∧ (∀ c ∈ s.bu, c.Met L v) ∧ (∀ c ∈ s.h, c.Met L v) ∧ ∀ c ∈ s.phi, c.MetPhi L s.r v

/-- all constraints of a stage -/
def StageCons.Met (s : StageCons K) (L : Lang K (Fn K)) (v : Env K) : Prop := s.MetButG L v ∧ ∀ c ∈ s.g, c.Met L v

/-- a constraint whose bounds are numbers that do not contradict each other -/
def Con.Numeric (c : Con K) : Prop := ∃ l u, c.lb = .const l ∧ c.ub = .const u ∧ l ≤ u

/-- all bounds of a stage are numbers -/
def StageCons.Numeric (s : StageCons K) : Prop := ∀ c ∈ s.bx ++ s.bu ++ s.h ++ s.phi, c.Numeric

/-- the parts of a cost term match; `ψ` has no other arguments than those declared -/
def Shaped (c : SC K (Fn K)) : Prop :=
  (c.kind = some .nonlinearLs → c.y.len = c.W.rows ∧ c.yref.len = c.W.rows ∧ c.W.cols = c.W.rows)
  ∧ (c.kind = some .conl → c.y.len = c.nr ∧ c.yref.len = c.nr ∧ ∀ ψ, c.psi = some ψ → ∀ i ≥ c.nr, ¬ ψ.occurs (.r i))

/-- cost types to which penalties can be added -/
def TakesL2 (c : SC K (Fn K)) : Prop := c.kind = some .nonlinearLs ∨ c.kind = some .conl ∨ c.kind = some .external

/-- the custom Hessian of `ψ` is absent or has the size of `ψ`'s argument -/
def OuterOk (c : SC K (Fn K)) : Prop := ∀ H, c.outer = some H → H.rows = c.nr ∧ H.cols = c.nr

end Acados.Penalty
