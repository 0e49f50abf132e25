import Verif.Spec.Soc
import Verif.Model.Num
import Mathlib.Logic.Function.Basic
/-!
# `ocp_nlp_perform_second_order_correction` (`ocp_nlp_common.c` lines 4227-4379)

The loop over the stages writes only data of its own stage (and a temporary), so one stage is modelled.
-/
namespace Acados.Soc
open Finset
variable {K : Type*} [CommRing K]

/-- dimensions of a stage -/
structure Dim where
  nx : Nat
  nu : Nat
  nx1 : Nat
  nu1 : Nat
  nb : Nat
  ng : Nat
  ns : Nat

/-- lines 4266-4271: new dynamics right-hand side; `f` is the dynamics function at the trial iterate, `p`, `pNext` the QP
solution of this and the next stage -/
def socB (s : Dim) (BAbt : Nat → Nat → K) (p pNext f b : Nat → K) (j : Nat) : K :=
  if j < s.nx1 then
    let t := (-1) * f j + (-1) * ∑ i ∈ range (s.nx + s.nu), BAbt i j * p i
    t + 1 * pNext (s.nu1 + j)
  else b j

/-- lines 4283-4290: general constraints; `f` is the constraint function at the trial iterate -/
def socD0 (s : Dim) (DCt : Nat → Nat → K) (p f d : Nat → K) : Nat → K :=
  let d := fun j => if s.nb ≤ j ∧ j < s.nb + s.ng then f j else d j
  let d := fun j => if 2 * s.nb + s.ng ≤ j ∧ j < 2 * s.nb + s.ng + s.ng then f j else d j
  let tmp := fun j => ∑ i ∈ range (s.nu + s.nx), DCt i j * p i
  let d := fun j => if s.nb ≤ j ∧ j < s.nb + s.ng then d j + 1 * tmp (j - s.nb) else d j
  fun j => if 2 * s.nb + s.ng ≤ j ∧ j < 2 * s.nb + s.ng + s.ng then d j + (-1) * tmp (j - (2 * s.nb + s.ng)) else d j

/-- lines 4296-4309: body of the loop over the constraints -/
def slackStep (s : Dim) (idxsRev : Nat → Int) (p : Nat → K) (d : Nat → K) (j : Nat) : Nat → K :=
  if 0 ≤ idxsRev j then
    let k := (idxsRev j).toNat
    let d := Function.update d j (d j - p (k + s.nx + s.nu))
    Function.update d (j + s.nb + s.ng) (d (j + s.nb + s.ng) - p (k + s.nx + s.nu + s.ns))
  else d

/-- lines 4276-4309: new inequality right-hand side -/
def socD (s : Dim) (DCt : Nat → Nat → K) (idxsRev : Nat → Int) (p f d : Nat → K) : Nat → K :=
  (List.range (s.nb + s.ng)).foldl (slackStep s idxsRev p) (socD0 s DCt p f d)

/-- lines 4360-4378: returned value and solver status from the status of the QP solver -/
def socStatus (qp st : Status) : Nat × Status :=
  if qp ≠ .success ∧ qp ≠ .maxIter then (1, .qpFailure) else (0, st)

end Acados.Soc
