import Verif.Model.QpScaling
/-!
# What it means to solve the QP

Feasible set, objective and KKT conditions of an OCP-structured QP with bounds, general
constraints, soft constraints and masks (independent of any solver or scaling).
-/
namespace Acados.QpScal
open Finset
variable {K : Type*} [Field K] [LinearOrder K]

/-- number of (two-sided) constraint rows -/
def Stage.m (s : Stage K) : Nat := s.nb + s.ng

/-- left-hand side of row `r`: a variable for a bound, a linear combination for a general row -/
def Stage.lhs (s : Stage K) (ux : Nat → K) (r : Nat) : K :=
  if r < s.nb then ux (s.idxb r) else ∑ c ∈ range s.nux, s.DCt c (r - s.nb) * ux c

/-- value of the lower slack of row `r` (0 for a hard row) -/
def Stage.sl (s : Stage K) (ux : Nat → K) (r : Nat) : K :=
  if 0 ≤ s.idxs r then ux (s.nux + (s.idxs r).toNat) else 0
/-- value of the upper slack of row `r` (0 for a hard row) -/
def Stage.su (s : Stage K) (ux : Nat → K) (r : Nat) : K :=
  if 0 ≤ s.idxs r then ux (s.nux + s.ns + (s.idxs r).toNat) else 0

/-- distance to the lower / upper side of row `r` and to the bounds of slack `k`
(`d` stores upper bounds with negative sign) -/
def Stage.gapL (s : Stage K) (ux : Nat → K) (r : Nat) : K := s.lhs ux r + s.sl ux r - s.d r
def Stage.gapU (s : Stage K) (ux : Nat → K) (r : Nat) : K :=
  - s.lhs ux r + s.su ux r - s.d (s.m + r)
def Stage.gapS (s : Stage K) (ux : Nat → K) (k : Nat) : K := ux (s.nux + k) - s.d (2 * s.m + k)

/-- feasible points -/
structure Feasible (q : Qp K) (ux : Nat → Nat → K) : Prop where
  dyn : ∀ i < q.N, ∀ c < q.nx (i + 1),
    (∑ r ∈ range (q.st i).nux, (q.st i).BAbt r c * ux i r) + (q.st i).b c
      = ux (i + 1) (q.nu (i + 1) + c)
  low : ∀ i ≤ q.N, ∀ r < (q.st i).m, (q.st i).mask r ≠ 0 → 0 ≤ (q.st i).gapL (ux i) r
  upp : ∀ i ≤ q.N, ∀ r < (q.st i).m, (q.st i).mask ((q.st i).m + r) ≠ 0 →
    0 ≤ (q.st i).gapU (ux i) r
  slk : ∀ i ≤ q.N, ∀ k < 2 * (q.st i).ns, (q.st i).mask (2 * (q.st i).m + k) ≠ 0 →
    0 ≤ (q.st i).gapS (ux i) k

/-- objective value -/
def value (q : Qp K) (ux : Nat → Nat → K) : K :=
  ∑ i ∈ range (q.N + 1),
    ((1/2) * (∑ r ∈ range (q.st i).nux, ux i r * ∑ c ∈ range (q.st i).nux, (q.st i).H r c * ux i c) +
      (∑ r ∈ range (q.st i).nux, (q.st i).g r * ux i r) +
      ∑ k ∈ range (2 * (q.st i).ns),
        ((1/2) * (q.st i).Z k * ux i ((q.st i).nux + k) ^ 2 +
          (q.st i).g ((q.st i).nux + k) * ux i ((q.st i).nux + k)))

/-- global solutions -/
def IsMin (q : Qp K) (ux : Nat → Nat → K) : Prop :=
  Feasible q ux ∧ ∀ ux', Feasible q ux' → value q ux ≤ value q ux'

/-- gradient of the Lagrangian with respect to entry `r` of `[u; x]` of stage `i` -/
def lagUx (q : Qp K) (w : Sol K) (i r : Nat) : K :=
  (∑ c ∈ range (q.st i).nux, (q.st i).H r c * w.ux i c) + (q.st i).g r +
  (if i < q.N then ∑ c ∈ range (q.nx (i + 1)), (q.st i).BAbt r c * w.pi i c else 0) -
  (if 0 < i ∧ q.nu i ≤ r then w.pi (i - 1) (r - q.nu i) else 0) -
  (∑ j ∈ range (q.st i).nb, if (q.st i).idxb j = r then
    w.lam i j - w.lam i ((q.st i).m + j) else 0) -
  ∑ j ∈ range (q.st i).ng, (q.st i).DCt r j *
    (w.lam i ((q.st i).nb + j) - w.lam i ((q.st i).m + ((q.st i).nb + j)))

/-- gradient of the Lagrangian with respect to the lower and upper slack `k` -/
def lagSl (q : Qp K) (w : Sol K) (i k : Nat) : K :=
  (q.st i).Z k * w.ux i ((q.st i).nux + k) + (q.st i).g ((q.st i).nux + k) -
  w.lam i (2 * (q.st i).m + k) -
  ∑ r ∈ range (q.st i).m, (if (q.st i).idxs r = (k : Int) then w.lam i r else 0)
def lagSu (q : Qp K) (w : Sol K) (i k : Nat) : K :=
  (q.st i).Z ((q.st i).ns + k) * w.ux i ((q.st i).nux + ((q.st i).ns + k)) +
  (q.st i).g ((q.st i).nux + ((q.st i).ns + k)) -
  w.lam i (2 * (q.st i).m + ((q.st i).ns + k)) -
  ∑ r ∈ range (q.st i).m, (if (q.st i).idxs r = (k : Int) then w.lam i ((q.st i).m + r) else 0)

/-- the KKT conditions of the QP; multipliers of masked rows are zero -/
structure Kkt (q : Qp K) (w : Sol K) : Prop where
  feas : Feasible q w.ux
  statUx : ∀ i ≤ q.N, ∀ r < (q.st i).nux, lagUx q w i r = 0
  statSl : ∀ i ≤ q.N, ∀ k < (q.st i).ns, lagSl q w i k = 0
  statSu : ∀ i ≤ q.N, ∀ k < (q.st i).ns, lagSu q w i k = 0
  low : ∀ i ≤ q.N, ∀ r < (q.st i).m, 0 ≤ w.lam i r ∧
    ((q.st i).mask r = 0 → w.lam i r = 0) ∧
    ((q.st i).mask r ≠ 0 → w.lam i r * (q.st i).gapL (w.ux i) r = 0)
  upp : ∀ i ≤ q.N, ∀ r < (q.st i).m, 0 ≤ w.lam i ((q.st i).m + r) ∧
    ((q.st i).mask ((q.st i).m + r) = 0 → w.lam i ((q.st i).m + r) = 0) ∧
    ((q.st i).mask ((q.st i).m + r) ≠ 0 →
      w.lam i ((q.st i).m + r) * (q.st i).gapU (w.ux i) r = 0)
  slk : ∀ i ≤ q.N, ∀ k < 2 * (q.st i).ns, 0 ≤ w.lam i (2 * (q.st i).m + k) ∧
    ((q.st i).mask (2 * (q.st i).m + k) = 0 → w.lam i (2 * (q.st i).m + k) = 0) ∧
    ((q.st i).mask (2 * (q.st i).m + k) ≠ 0 →
      w.lam i (2 * (q.st i).m + k) * (q.st i).gapS (w.ux i) k = 0)

/-- well-formed QP data: dimensions fit, index arrays in range, masks are 0/1 -/
structure WF (q : Qp K) : Prop where
  nux : ∀ i, (q.st i).nux = q.nu i + q.nx i
  idxb : ∀ i, ∀ j < (q.st i).nb, (q.st i).idxb j < (q.st i).nux
  idxs : ∀ i, ∀ r < (q.st i).m, (q.st i).idxs r = -1 ∨
    ∃ k < (q.st i).ns, (q.st i).idxs r = (k : Int)
  mask : ∀ i r, (q.st i).mask r = 0 ∨ (q.st i).mask r = 1

/-- no slack is shared by two constraint rows of a stage -/
def SlacksUnshared (q : Qp K) : Prop :=
  ∀ i, ∀ r < (q.st i).m, ∀ r' < (q.st i).m, 0 ≤ (q.st i).idxs r →
    (q.st i).idxs r = (q.st i).idxs r' → r = r'

end Acados.QpScal
