import Verif.Model.Mem
/-! Helper lemmas about the bump allocator. -/
namespace Acados.Mem

theorem ceil_mul_spec (num n : Nat) (h : 0 < num) :
    num ∣ (n + num - 1) / num * num ∧ n ≤ (n + num - 1) / num * num ∧
      (n + num - 1) / num * num < n + num := by
  have hd := Nat.div_add_mod (n + num - 1) num
  have hm := Nat.mod_lt (n + num - 1) h
  have hc : num * ((n + num - 1) / num) = (n + num - 1) / num * num := Nat.mul_comm _ _
  exact ⟨⟨_, hc.symm⟩, by omega, by omega⟩

theorem alignCharTo_dvd {a p : Nat} (h : 0 < a) : a ∣ alignCharTo a p := (ceil_mul_spec a p h).1
theorem le_alignCharTo {a p : Nat} (h : 0 < a) : p ≤ alignCharTo a p := (ceil_mul_spec a p h).2.1
theorem alignCharTo_lt {a p : Nat} (h : 0 < a) : alignCharTo a p < p + a :=
  (ceil_mul_spec a p h).2.2

theorem le_makeIntMultipleOf (num n : Nat) : n ≤ makeIntMultipleOf num n := by
  unfold makeIntMultipleOf
  split
  · exact (ceil_mul_spec num n (by omega)).2.1
  · exact Nat.le_refl _

/-- worst-case number of bytes consumed -/
def need : List Op → Nat
  | [] => 0
  | .align a :: t => (a - 1) + need t
  | .alloc _ _ s :: t => s + need t

/-- statically known alignment suffices; `m` divides the current pointer -/
def AlOK : Nat → List Op → Prop
  | _, [] => True
  | _, .align a :: t => 0 < a ∧ AlOK a t
  | m, .alloc nat _ s :: t => nat ∣ m ∧ AlOK (Nat.gcd m s) t

theorem run_ok (ops : List Op) : ∀ (m p : Nat), m ∣ p → AlOK m ops →
    ∃ rs q, run ops p = some (rs, q) ∧ p ≤ q ∧ q ≤ p + need ops ∧
      (∀ r ∈ rs, p ≤ r.start ∧ r.start + r.size ≤ q ∧ r.natural ∣ r.start) ∧
      rs.Pairwise (fun r s => r.start + r.size ≤ s.start) := by
  induction ops with
  | nil => intro m p _ _; exact ⟨[], p, rfl, by omega, by simp [need], by simp, List.Pairwise.nil⟩
  | cons o t ih =>
    intro m p hm hal
    cases o with
    | align a =>
      obtain ⟨ha, hal⟩ := hal
      obtain ⟨rs, q, hr, h1, h2, h3, h4⟩ := ih a (alignCharTo a p) (alignCharTo_dvd ha) hal
      have e1 := @le_alignCharTo a p ha
      have e2 := @alignCharTo_lt a p ha
      refine ⟨rs, q, hr, by omega, by simp only [need]; omega, ?_, h4⟩
      intro r hrs
      have := h3 r hrs
      exact ⟨by omega, this.2⟩
    | alloc nat asserted s =>
      obtain ⟨hn, hal⟩ := hal
      have hdp : nat ∣ p := Nat.dvd_trans hn hm
      have hg : Nat.gcd m s ∣ p + s :=
        Nat.dvd_add (Nat.dvd_trans (Nat.gcd_dvd_left _ _) hm) (Nat.gcd_dvd_right _ _)
      obtain ⟨rs, q, hr, h1, h2, h3, h4⟩ := ih _ (p + s) hg hal
      refine ⟨⟨p, s, nat⟩ :: rs, q, ?_, by omega, by simp only [need]; omega, ?_, ?_⟩
      · have : p % nat = 0 := Nat.mod_eq_zero_of_dvd hdp
        simp [run, this, hr]
      · intro r hrs
        rcases List.mem_cons.1 hrs with rfl | hrs
        · exact ⟨Nat.le_refl _, by simpa using h1, hdp⟩
        · have := h3 r hrs
          exact ⟨by omega, this.2⟩
      · refine List.Pairwise.cons ?_ h4
        intro r hrs
        exact (h3 r hrs).1

/-- allocation of a family of blocks `alloc nat b (s i)` -/
theorem need_append (a b : List Op) : need (a ++ b) = need a + need b := by
  induction a with
  | nil => simp [need]
  | cons o t ih => cases o <;> simp [need, ih] <;> omega

end Acados.Mem
