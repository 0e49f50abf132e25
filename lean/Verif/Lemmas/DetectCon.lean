import Verif.Model.DetectCon
import Mathlib.Tactic.Linarith
import Mathlib.Tactic.FieldSimp
import Mathlib.Tactic.Ring
import Mathlib.Algebra.Order.BigOperators.Group.Finset
/-!
# Lemmas on constraint detection
-/
namespace Acados.DetectCon
variable {K : Type} [Field K] [LinearOrder K]
open Finset

/-- all constraints of two lists -/
def Cons.app (a b : Cons K) : Cons K := ⟨a.h ++ b.h, a.g ++ b.g, a.bx ++ b.bx, a.bu ++ b.bu⟩

theorem feas_app (nx nu : Nat) (a b : Cons K) (x u w : Nat → K) : Feas nx nu (a.app b) x u w ↔ Feas nx nu a x u w ∧ Feas nx nu b x u w := by
  unfold Feas Cons.app
  simp only [List.forall_mem_append]
  tauto

/-- what is left of a linear constraint: its value without the constant -/
def Item.ok (it : Item K) (x u w : Nat → K) : Prop :=
  Within it.lb it.ub (it.con.fn x u w - if it.con.lin then it.con.fn (fun _ => 0) (fun _ => 0) (fun _ => 0) else 0)

theorem mem_nonzeros {n : Nat} {J : Nat → K} {i : Nat} : i ∈ nonzeros n J ↔ i < n ∧ J i ≠ 0 := by
  unfold nonzeros
  rw [List.mem_filter, List.mem_range, decide_eq_true_eq]

variable [IsStrictOrderedRing K]

theorem within_div (lb ub c v : K) (hc : 0 < c) : Within (lb / c) (ub / c) v ↔ Within lb ub (c * v) := by
  unfold Within
  rw [div_le_iff₀ hc, le_div_iff₀ hc, mul_comm v c]

theorem feas_one (nx nu : Nat) (it : Item K) (haff : it.con.lin = true → AffineWith nx nu it.con.fn it.con.J)
    (hpos : it.con.lin = true → ∀ i, nonzeros (nx + nu) it.con.J = [i] → 0 < it.con.J i) (x u w : Nat → K) :
    Feas nx nu (one nx nu it) x u w ↔ it.ok x u w := by
  unfold Item.ok one
  by_cases hl : it.con.lin = false
  · rw [if_pos hl, hl]
    unfold Feas
    simp
  · have hl : it.con.lin = true := by simpa using hl
    rw [if_neg (by rw [hl]; simp), hl, if_pos rfl, haff hl x u w, add_sub_cancel_right]
    split
    · rename_i i heq
      have hp := hpos hl i heq
      have hi : i < nx + nu := (mem_nonzeros.1 (by rw [heq]; simp)).1
      have hother : ∀ k, k < nx + nu → k ≠ i → it.con.J k = 0 := by
        intro k hk hne
        by_contra hc
        have : k ∈ nonzeros (nx + nu) it.con.J := mem_nonzeros.2 ⟨hk, hc⟩
        rw [heq] at this
        exact hne (by simpa using this)
      split
      · rename_i hx
        have e1 : ∑ k ∈ range nx, it.con.J k * x k = it.con.J i * x i := by
          refine Finset.sum_eq_single_of_mem i (mem_range.2 hx) ?_
          intro k hk hne
          rw [hother k (by have := mem_range.1 hk; omega) hne, zero_mul]
        have e2 : ∑ k ∈ range nu, it.con.J (nx + k) * u k = 0 := by
          refine Finset.sum_eq_zero ?_
          intro k hk
          rw [hother (nx + k) (by have := mem_range.1 hk; omega) (by omega), zero_mul]
        rw [e1, e2, add_zero, ← within_div _ _ _ _ hp]
        unfold Feas
        simp
      · rename_i hx
        have e1 : ∑ k ∈ range nx, it.con.J k * x k = 0 := by
          refine Finset.sum_eq_zero ?_
          intro k hk
          have := mem_range.1 hk
          rw [hother k (by omega) (by omega), zero_mul]
        have e2 : ∑ k ∈ range nu, it.con.J (nx + k) * u k = it.con.J i * u (i - nx) := by
          have hm : i - nx ∈ range nu := mem_range.2 (by omega)
          rw [Finset.sum_eq_single_of_mem (i - nx) hm]
          · rw [show nx + (i - nx) = i by omega]
          · intro k hk hne
            have := mem_range.1 hk
            rw [hother (nx + k) (by omega) (by omega), zero_mul]
        rw [e1, e2, zero_add, ← within_div _ _ _ _ hp]
        unfold Feas
        simp
    · unfold Feas
      simp

theorem feas_collect (nx nu : Nat) (l : List (Item K)) (haff : ∀ it ∈ l, it.con.lin = true → AffineWith nx nu it.con.fn it.con.J)
    (hpos : ∀ it ∈ l, it.con.lin = true → ∀ i, nonzeros (nx + nu) it.con.J = [i] → 0 < it.con.J i) (x u w : Nat → K) :
    Feas nx nu (collect nx nu l) x u w ↔ ∀ it ∈ l, it.ok x u w := by
  induction l with
  | nil =>
    unfold collect Feas
    simp
  | cons it l ih =>
    have e : collect nx nu (it :: l) = (one nx nu it).app (collect nx nu l) := rfl
    rw [e, feas_app, feas_one nx nu it (haff it List.mem_cons_self) (hpos it List.mem_cons_self),
      ih (fun x hx => haff x (List.mem_cons_of_mem _ hx)) (fun x hx => hpos x (List.mem_cons_of_mem _ hx)), List.forall_mem_cons]

omit [IsStrictOrderedRing K] in
theorem collect_h (nx nu : Nat) (l : List (Item K)) : (collect nx nu l).h = l.filter fun it => it.con.lin = false := by
  induction l with
  | nil => rfl
  | cons it l ih =>
    show (one nx nu it).h ++ (collect nx nu l).h = _
    rw [ih]
    unfold one
    by_cases hl : it.con.lin = false
    · rw [if_pos hl, List.filter_cons_of_pos (by simpa using hl)]
      rfl
    · rw [if_neg hl, List.filter_cons_of_neg (by simpa using hl)]
      split
      · split <;> rfl
      · rfl

omit [IsStrictOrderedRing K] in
/-- replacing is adding if one of the lists is empty -/
theorem forall_repl {α : Type} (found old : List α) (P : α → Prop) (h : found = [] ∨ old = []) :
    (∀ a ∈ repl found old, P a) ↔ (∀ a ∈ found, P a) ∧ ∀ a ∈ old, P a := by
  unfold repl
  rcases h with rfl | rfl
  · simp
  · cases found <;> simp

end Acados.DetectCon
