import Verif.Model.Soc
import Mathlib.Algebra.BigOperators.Ring.Finset
import Mathlib.Tactic.LinearCombination
import Mathlib.Tactic.Ring
import Mathlib.Algebra.Order.Ring.Rat
/-!
# C50: second-order correction
-/
namespace Acados.Soc
open Finset
variable {K : Type*} [CommRing K]

theorem corrected_eq (n : Nat) (c : K) (J p q : Nat → K) : corrected n c J p q = c + dot n J q - dot n J p := by
  simp only [corrected, dot, mul_sub, sum_sub_distrib]; ring

/-- C50 for the dynamics, exact: the corrected equation is solved with the wrong sign of the function value at the trial
point.  Row `j`: derivative `BAbt · j` with respect to this stage, `-1` with respect to the next state. -/
theorem C50_dynamics_exact (s : Dim) (BAbt : Nat → Nat → K) (p pNext q qNext f b : Nat → K) {j : Nat} (hj : j < s.nx1) :
    dynRes (s.nx + s.nu) (fun i => BAbt i j) (socB s BAbt p pNext f b j) q (qNext (s.nu1 + j))
      = corrected (s.nx + s.nu) (f j) (fun i => BAbt i j) p q - (qNext (s.nu1 + j) - pNext (s.nu1 + j)) - 2 * f j := by
  rw [corrected_eq, dynRes, socB, if_pos hj]
  simp only [dot]
  ring

/-- C50 for the dynamics where the trial point satisfies the equation: the corrected equation. -/
theorem C50_dynamics_partial (s : Dim) (BAbt : Nat → Nat → K) (p pNext q qNext f b : Nat → K) {j : Nat} (hj : j < s.nx1)
    (hf : f j = 0) :
    dynRes (s.nx + s.nu) (fun i => BAbt i j) (socB s BAbt p pNext f b j) q (qNext (s.nu1 + j))
      = corrected (s.nx + s.nu) (f j) (fun i => BAbt i j) p q - (qNext (s.nu1 + j) - pNext (s.nu1 + j)) := by
  rw [C50_dynamics_exact s BAbt p pNext q qNext f b hj, hf]; ring

theorem socD_fold (s : Dim) (idxsRev : Nat → Int) (p d : Nat → K) (n : Nat) (hn : n ≤ s.nb + s.ng) :
    let r := (List.range n).foldl (slackStep s idxsRev p) d
    (∀ j < s.nb + s.ng, r j = if j < n ∧ 0 ≤ idxsRev j then d j - p ((idxsRev j).toNat + s.nx + s.nu) else d j) ∧
    (∀ j < s.nb + s.ng, r (s.nb + s.ng + j) = if j < n ∧ 0 ≤ idxsRev j
      then d (s.nb + s.ng + j) - p ((idxsRev j).toNat + s.nx + s.nu + s.ns) else d (s.nb + s.ng + j)) ∧
    ∀ j, 2 * (s.nb + s.ng) ≤ j → r j = d j := by
  induction n with
  | zero => exact ⟨fun j _ => by simp, fun j _ => by simp, fun j _ => rfl⟩
  | succ n ih =>
    intro r
    obtain ⟨i1, i2, i3⟩ := ih (by omega)
    have hr : r = slackStep s idxsRev p ((List.range n).foldl (slackStep s idxsRev p) d) n := by
      simp only [r, List.range_succ, List.foldl_append, List.foldl_cons, List.foldl_nil]
    generalize (List.range n).foldl (slackStep s idxsRev p) d = w at *
    clear_value r
    subst hr
    simp only [slackStep]
    by_cases h0 : 0 ≤ idxsRev n
    · rw [if_pos h0]
      refine ⟨fun j hj => ?_, fun j hj => ?_, fun j hj => ?_⟩
      · rw [Function.update_of_ne (by omega)]
        by_cases e : j = n
        · subst e
          have h1 := i1 j hj
          rw [if_neg (by omega)] at h1
          rw [Function.update_self, h1, if_pos ⟨by omega, h0⟩]
        · rw [Function.update_of_ne e, i1 j hj]
          have : (j < n ∧ 0 ≤ idxsRev j) ↔ (j < n + 1 ∧ 0 ≤ idxsRev j) := by omega
          simp only [this]
      · by_cases e : j = n
        · subst e
          have h1 := i2 j hj
          rw [if_neg (by omega)] at h1
          rw [show s.nb + s.ng + j = j + s.nb + s.ng by omega] at h1 ⊢
          rw [Function.update_self, if_pos ⟨by omega, h0⟩, Function.update_of_ne (by omega), h1]
        · rw [Function.update_of_ne (by omega), Function.update_of_ne (by omega), i2 j hj]
          have : (j < n ∧ 0 ≤ idxsRev j) ↔ (j < n + 1 ∧ 0 ≤ idxsRev j) := by omega
          simp only [this]
      · rw [Function.update_of_ne (by omega), Function.update_of_ne (by omega), i3 j hj]
    · rw [if_neg h0]
      refine ⟨fun j hj => ?_, fun j hj => ?_, i3⟩
      · rw [i1 j hj]
        have : (j < n ∧ 0 ≤ idxsRev j) ↔ (j < n + 1 ∧ 0 ≤ idxsRev j) :=
          ⟨fun h => ⟨by omega, h.2⟩, fun h => ⟨by
            rcases Nat.lt_or_ge j n with h' | h'
            · exact h'
            · obtain rfl : j = n := by omega
              exact absurd h.2 h0, h.2⟩⟩
        simp only [this]
      · rw [i2 j hj]
        have : (j < n ∧ 0 ≤ idxsRev j) ↔ (j < n + 1 ∧ 0 ≤ idxsRev j) :=
          ⟨fun h => ⟨by omega, h.2⟩, fun h => ⟨by
            rcases Nat.lt_or_ge j n with h' | h'
            · exact h'
            · obtain rfl : j = n := by omega
              exact absurd h.2 h0, h.2⟩⟩
        simp only [this]

/-- step of the lower slack of constraint `j`, zero for a hard constraint -/
def slLow (s : Dim) (idxsRev : Nat → Int) (p : Nat → K) (j : Nat) : K :=
  if 0 ≤ idxsRev j then p ((idxsRev j).toNat + s.nx + s.nu) else 0

/-- step of the upper slack -/
def slUpp (s : Dim) (idxsRev : Nat → Int) (p : Nat → K) (j : Nat) : K :=
  if 0 ≤ idxsRev j then p ((idxsRev j).toNat + s.nx + s.nu + s.ns) else 0

/-- C50 for the general constraints, exact: lower and upper row of general constraint `j`, which depends on inputs, states
(derivative `DCt · j`) and its slacks (derivative `-1`).  The slack of the trial step enters with the wrong sign. -/
theorem C50_general_exact (s : Dim) (DCt : Nat → Nat → K) (idxsRev : Nat → Int) (p q f d : Nat → K) {j : Nat} (hj : j < s.ng) :
    let r := s.nb + j
    let J := fun i => DCt i j
    lowRes (s.nu + s.nx) J (socD s DCt idxsRev p f d r) q (slLow s idxsRev q r)
      = corrected (s.nu + s.nx) (f r) (fun i => -J i) p q - (slLow s idxsRev q r - slLow s idxsRev p r)
        - 2 * slLow s idxsRev p r ∧
    uppRes (s.nu + s.nx) J (socD s DCt idxsRev p f d (s.nb + s.ng + r)) q (slUpp s idxsRev q r)
      = corrected (s.nu + s.nx) (f (s.nb + s.ng + r)) J p q - (slUpp s idxsRev q r - slUpp s idxsRev p r)
        - 2 * slUpp s idxsRev p r := by
  intro r J
  obtain ⟨h1, h2, _⟩ := socD_fold s idxsRev p (socD0 s DCt p f d) (s.nb + s.ng) (Nat.le_refl _)
  have e1 : socD0 s DCt p f d r = f r + dot (s.nu + s.nx) J p := by
    simp only [socD0]
    rw [if_neg (by omega), if_pos (by omega), if_neg (by omega), if_pos (by omega)]
    simp only [one_mul, dot, J]
    rw [show r - s.nb = j by omega]
  have e2 : socD0 s DCt p f d (s.nb + s.ng + r) = f (s.nb + s.ng + r) - dot (s.nu + s.nx) J p := by
    simp only [socD0]
    rw [if_pos (by omega), if_neg (by omega), if_pos (by omega)]
    simp only [dot, J]
    rw [show s.nb + s.ng + r - (2 * s.nb + s.ng) = j by omega]
    ring
  have hn : dot (s.nu + s.nx) (fun i => -J i) q = - dot (s.nu + s.nx) J q := by simp [dot]
  have hp : dot (s.nu + s.nx) (fun i => -J i) p = - dot (s.nu + s.nx) J p := by simp [dot]
  have a1 := h1 r (by omega)
  have a2 := h2 r (by omega)
  rw [e1] at a1
  rw [e2] at a2
  have b1 : socD s DCt idxsRev p f d r = f r + dot (s.nu + s.nx) J p - slLow s idxsRev p r := by
    refine a1.trans ?_
    rw [slLow]
    by_cases hs : 0 ≤ idxsRev r
    · rw [if_pos hs, if_pos ⟨by omega, hs⟩]
    · rw [if_neg hs, if_neg fun h => hs h.2, sub_zero]
  have b2 : socD s DCt idxsRev p f d (s.nb + s.ng + r)
      = f (s.nb + s.ng + r) - dot (s.nu + s.nx) J p - slUpp s idxsRev p r := by
    refine a2.trans ?_
    rw [slUpp]
    by_cases hs : 0 ≤ idxsRev r
    · rw [if_pos hs, if_pos ⟨by omega, hs⟩]
    · rw [if_neg hs, if_neg fun h => hs h.2, sub_zero]
  rw [lowRes, uppRes, b1, b2, corrected_eq, corrected_eq, hn, hp]
  constructor <;> ring

/-- C50 for hard general constraints: both rows are the corrected constraint. -/
theorem C50_general_partial (s : Dim) (DCt : Nat → Nat → K) (idxsRev : Nat → Int) (p q f d : Nat → K) {j : Nat} (hj : j < s.ng)
    (hs : idxsRev (s.nb + j) < 0) :
    lowRes (s.nu + s.nx) (fun i => DCt i j) (socD s DCt idxsRev p f d (s.nb + j)) q 0
      = corrected (s.nu + s.nx) (f (s.nb + j)) (fun i => -DCt i j) p q ∧
    uppRes (s.nu + s.nx) (fun i => DCt i j) (socD s DCt idxsRev p f d (s.nb + s.ng + (s.nb + j))) q 0
      = corrected (s.nu + s.nx) (f (s.nb + s.ng + (s.nb + j))) (fun i => DCt i j) p q := by
  have h := C50_general_exact s DCt idxsRev p q f d hj
  have h' : ∀ v : Nat → K, slLow s idxsRev v (s.nb + j) = 0 := fun v => if_neg (by omega)
  have h'' : ∀ v : Nat → K, slUpp s idxsRev v (s.nb + j) = 0 := fun v => if_neg (by omega)
  simp only [h', h''] at h
  refine ⟨h.1.trans (by ring), h.2.trans (by ring)⟩

/-- C50 for bounds, exact: their rows (which are exact already) are shifted by the slack step; rows of hard bounds and the
bounds on slacks do not change. -/
theorem C50_bounds_exact (s : Dim) (DCt : Nat → Nat → K) (idxsRev : Nat → Int) (p f d : Nat → K) :
    (∀ j < s.nb, socD s DCt idxsRev p f d j = d j - slLow s idxsRev p j ∧
      socD s DCt idxsRev p f d (s.nb + s.ng + j) = d (s.nb + s.ng + j) - slUpp s idxsRev p j) ∧
    ∀ j, 2 * (s.nb + s.ng) ≤ j → socD s DCt idxsRev p f d j = d j := by
  obtain ⟨h1, h2, h3⟩ := socD_fold s idxsRev p (socD0 s DCt p f d) (s.nb + s.ng) (Nat.le_refl _)
  have e : ∀ j, (j < s.nb ∨ (s.nb + s.ng ≤ j ∧ j < 2 * s.nb + s.ng) ∨ 2 * (s.nb + s.ng) ≤ j) → socD0 s DCt p f d j = d j := by
    intro j hj
    simp only [socD0]
    rw [if_neg (by omega), if_neg (by omega), if_neg (by omega), if_neg (by omega)]
  refine ⟨fun j hj => ⟨?_, ?_⟩, fun j hj => ?_⟩
  · refine (h1 j (by omega)).trans ?_
    rw [e j (by omega), slLow]
    by_cases hs : 0 ≤ idxsRev j
    · rw [if_pos hs, if_pos ⟨by omega, hs⟩]
    · rw [if_neg hs, if_neg fun h => hs h.2, sub_zero]
  · refine (h2 j (by omega)).trans ?_
    rw [e _ (by omega), slUpp]
    by_cases hs : 0 ≤ idxsRev j
    · rw [if_pos hs, if_pos ⟨by omega, hs⟩]
    · rw [if_neg hs, if_neg fun h => hs h.2, sub_zero]
  · exact (h3 j hj).trans (e j (by omega))

/-- C50 for affine problems without soft constraints: if the function values at the trial point are those of the
linearisation and the step solves the linearised dynamics, the correction leaves the subproblem unchanged. -/
theorem C50_affine_partial (s : Dim) (BAbt DCt : Nat → Nat → K) (idxsRev : Nat → Int) (p pNext c0 c g0 g : Nat → K)
    (hs : ∀ j < s.nb + s.ng, idxsRev j < 0)
    (hdyn : ∀ j < s.nx1, dynRes (s.nx + s.nu) (fun i => BAbt i j) (c0 j) p (pNext (s.nu1 + j)) = 0)
    (hc : ∀ j < s.nx1, c j = c0 j + dot (s.nx + s.nu) (fun i => BAbt i j) p - pNext (s.nu1 + j))
    (hlow : ∀ j < s.ng, g (s.nb + j) = g0 (s.nb + j) - dot (s.nu + s.nx) (fun i => DCt i j) p)
    (hupp : ∀ j < s.ng, g (s.nb + s.ng + (s.nb + j)) = g0 (s.nb + s.ng + (s.nb + j)) + dot (s.nu + s.nx) (fun i => DCt i j) p) :
    (∀ j < s.nx1, socB s BAbt p pNext c c0 j = c0 j) ∧ ∀ j, socD s DCt idxsRev p g g0 j = g0 j := by
  refine ⟨fun j hj => ?_, fun j => ?_⟩
  · have h1 := hdyn j hj
    have h2 := hc j hj
    simp only [dynRes, dot] at h1 h2
    rw [socB, if_pos hj]
    simp only
    linear_combination -h2 - 2 * h1
  · obtain ⟨b1, b2⟩ := C50_bounds_exact s DCt idxsRev p g g0
    by_cases h1 : j < s.nb
    · rw [(b1 j h1).1, slLow, if_neg (by have := hs j (by omega); omega), sub_zero]
    by_cases h2 : j < s.nb + s.ng
    · have h := (C50_general_partial s DCt idxsRev p (fun _ => 0) g g0 (j := j - s.nb) (by omega)
        (hs _ (by omega))).1
      have hl := hlow (j - s.nb) (by omega)
      rw [show s.nb + (j - s.nb) = j by omega] at h hl
      rw [lowRes, corrected_eq] at h
      simp only [dot, mul_zero, sum_const_zero, neg_mul, sum_neg_distrib] at h hl
      linear_combination h + hl
    by_cases h3 : j < 2 * s.nb + s.ng
    · have h := (b1 (j - (s.nb + s.ng)) (by omega)).2
      rw [show s.nb + s.ng + (j - (s.nb + s.ng)) = j by omega] at h
      rw [h, slUpp, if_neg (by have := hs (j - (s.nb + s.ng)) (by omega); omega), sub_zero]
    by_cases h4 : j < 2 * (s.nb + s.ng)
    · have h := (C50_general_partial s DCt idxsRev p (fun _ => 0) g g0 (j := j - (2 * s.nb + s.ng)) (by omega)
        (hs _ (by omega))).2
      have hl := hupp (j - (2 * s.nb + s.ng)) (by omega)
      rw [show s.nb + s.ng + (s.nb + (j - (2 * s.nb + s.ng))) = j by omega] at h hl
      rw [uppRes, corrected_eq] at h
      simp only [dot, mul_zero, sum_const_zero] at h hl
      linear_combination h + hl
    · exact b2 j (by omega)

/-- C50: the correction reports failure exactly when the QP solver failed. -/
theorem C50_status (qp st : Status) :
    ((socStatus qp st).1 = 0 ↔ qp = .success ∨ qp = .maxIter) ∧ ((socStatus qp st).1 ≠ 0 → (socStatus qp st).2 = .qpFailure) := by
  cases qp <;> simp [socStatus]

/-- `x⁺ = u²` at `u = 1`, `x⁺ = 1`: step `u: 1`, `x⁺: 2` solves the linearised dynamics; trial value `4 - 3 = 1`. -/
def sW : Dim := ⟨0, 1, 1, 0, 0, 0, 0⟩

/-- C50 is false of the code: for `x⁺ = u²` the corrected equation at the current iterate is `2 q_u + b = q_x` with `b = 1`;
the code uses `b = -1`, moving the solution away from the constraint. -/
theorem C50_dynamics_wrong_sign :
    let f : Rat → Rat → Rat := fun u x => u ^ 2 - x
    dynRes 1 (fun _ => 2) (f 1 1) (fun _ => (1 : Rat)) 2 = 0 ∧
    corrected 1 (f 2 3) (fun _ => 2) (fun _ => 1) (fun _ => (1 : Rat)) - (3 - 2) = 0 ∧
    socB sW (fun _ _ => 2) (fun _ => 1) (fun _ => 2) (fun _ => f 2 3) (fun _ => f 1 1) 0 = -1 ∧
    dynRes 1 (fun _ => 2) (socB sW (fun _ _ => 2) (fun _ => 1) (fun _ => 2) (fun _ => f 2 3) (fun _ => f 1 1) 0)
      (fun _ => (1 : Rat)) 3 = -2 := by decide +kernel

/-- C50 is false of the code for soft constraints, also affine ones: a soft bound whose slack moves by `1` is shifted by
`1`, a soft general constraint by `2`. -/
theorem C50_soft_affine_changed :
    (let s : Dim := ⟨1, 0, 0, 0, 1, 0, 1⟩
     socD s (fun _ _ => 0) (fun _ => 0) (fun i => if i = 1 then (1 : Rat) else 0) (fun _ => 0) (fun _ => 5) 0 = 4) ∧
    (let s : Dim := ⟨1, 0, 0, 0, 0, 1, 1⟩
     let g : Rat → Rat → Rat := fun x sl => 5 - x - sl
     socD s (fun _ _ => 1) (fun _ => 0) (fun i => if i = 1 then (1 : Rat) else 0) (fun _ => g 0 1) (fun _ => g 0 0) 0
       = g 0 0 - 2) := by decide +kernel

/-- the affine theorem is not vacuous: `x⁺ = x + u`, `1 ≤ x + u ≤ 3`, step `(u, x, x⁺) = (1, 0, 1)` -/
example : let s : Dim := ⟨1, 1, 1, 1, 0, 1, 0⟩
    let p : Nat → Rat := fun i => if i = 0 then 1 else 0
    let pN : Nat → Rat := fun i => if i = 0 then 0 else 1
    let one : Nat → Nat → Rat := fun _ _ => 1
    (∀ j < s.nx1, dynRes (s.nx + s.nu) (fun i => one i j) 0 p (pN (s.nu1 + j)) = 0) ∧
    (∀ j < s.ng, ((fun i => if i = 0 then 0 else -2 : Nat → Rat) (s.nb + j))
      = (fun i => if i = 0 then 1 else -3 : Nat → Rat) (s.nb + j) - dot (s.nu + s.nx) (fun i => one i j) p) ∧
    socD s one (fun _ => -1) p (fun i => if i = 0 then 0 else -2) (fun i => if i = 0 then 1 else -3) 0 = 1 := by
  decide +kernel

end Acados.Soc
