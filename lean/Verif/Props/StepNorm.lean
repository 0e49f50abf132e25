import Verif.Model.StepNorm
import Mathlib.Algebra.Order.Field.Rat
import Mathlib.Tactic.Ring

/-!
C108: step norms.
-/

namespace Acados.StepNorm

open Acados.Res (nrmInf)

section
variable {K : Type*} [Field K] [LinearOrder K]

theorem nrmInf_norm (n : ℕ) (x : ℕ → K) : IsNorm (fun a => ∃ j, j < n ∧ x j = a) (nrmInf n x) := by
  induction n with
  | zero => exact ⟨le_rfl, fun a ⟨j, hj, _⟩ => absurd hj (by omega), Or.inl rfl⟩
  | succ n ih =>
    obtain ⟨h1, h2, h3⟩ := ih
    have he : nrmInf (n + 1) x = max (nrmInf n x) |x n| := by
      unfold nrmInf
      rw [List.range_succ, List.foldl_append]
      rfl
    rw [he]
    refine ⟨le_trans h1 (le_max_left _ _), ?_, ?_⟩
    · rintro a ⟨j, hj, rfl⟩
      rcases Nat.lt_succ_iff_lt_or_eq.1 hj with h | rfl
      · exact le_trans (h2 _ ⟨j, h, rfl⟩) (le_max_left _ _)
      · exact le_max_right _ _
    · rcases max_choice (nrmInf n x) |x n| with h | h
      · rw [h]
        rcases h3 with h3 | ⟨a, ⟨j, hj, ha⟩, hn⟩
        · exact Or.inl h3
        · exact Or.inr ⟨a, ⟨j, by omega, ha⟩, hn⟩
      · rw [h]
        exact Or.inr ⟨x n, ⟨n, by omega, rfl⟩, rfl⟩

theorem cmax_norm (P Q : K → Prop) (a b : K) (ha : IsNorm P a) (hb : IsNorm Q b) :
    IsNorm (fun v => P v ∨ Q v) (cmax a b) := by
  obtain ⟨a1, a2, a3⟩ := ha
  obtain ⟨b1, b2, b3⟩ := hb
  unfold cmax
  split_ifs with h
  · refine ⟨a1, ?_, ?_⟩
    · rintro v (hv | hv)
      · exact a2 v hv
      · exact le_trans (b2 v hv) (le_of_lt h)
    · rcases a3 with a3 | ⟨v, hv, he⟩
      · exact Or.inl a3
      · exact Or.inr ⟨v, Or.inl hv, he⟩
  · have h' := not_lt.1 h
    refine ⟨b1, ?_, ?_⟩
    · rintro v (hv | hv)
      · exact le_trans (a2 v hv) h'
      · exact b2 v hv
    · rcases b3 with b3 | ⟨v, hv, he⟩
      · exact Or.inl b3
      · exact Or.inr ⟨v, Or.inr hv, he⟩

theorem norm_congr (P Q : K → Prop) (n : K) (h : ∀ a, P a ↔ Q a) (hp : IsNorm P n) : IsNorm Q n := by
  obtain ⟨h1, h2, h3⟩ := hp
  refine ⟨h1, fun a ha => h2 a ((h a).2 ha), ?_⟩
  rcases h3 with h3 | ⟨a, ha, he⟩
  · exact Or.inl h3
  · exact Or.inr ⟨a, (h a).1 ha, he⟩

theorem fold_norm (f : K → ℕ → K) (E : ℕ → K → Prop)
    (hf : ∀ P r i, IsNorm P r → IsNorm (fun a => P a ∨ E i a) (f r i)) (P0 : K → Prop) (r0 : K)
    (h0 : IsNorm P0 r0) (n : ℕ) :
    IsNorm (fun a => P0 a ∨ ∃ i, i < n ∧ E i a) ((List.range n).foldl f r0) := by
  induction n with
  | zero =>
    refine norm_congr _ _ _ (fun a => ?_) h0
    exact ⟨Or.inl, fun h => h.elim id fun ⟨i, hi, _⟩ => absurd hi (by omega)⟩
  | succ n ih =>
    rw [List.range_succ, List.foldl_append]
    refine norm_congr _ _ _ (fun a => ?_) (hf _ _ n ih)
    constructor
    · rintro ((h | ⟨i, hi, h⟩) | h)
      · exact Or.inl h
      · exact Or.inr ⟨i, by omega, h⟩
      · exact Or.inr ⟨n, by omega, h⟩
    · rintro (h | ⟨i, hi, h⟩)
      · exact Or.inl (Or.inl h)
      · rcases Nat.lt_succ_iff_lt_or_eq.1 hi with hi | rfl
        · exact Or.inl (Or.inr ⟨i, hi, h⟩)
        · exact Or.inr h

theorem zero_norm : IsNorm (fun _ : K => False) 0 := ⟨le_rfl, fun _ h => h.elim, Or.inl rfl⟩

/-- **C108.** The primal step norm is the largest absolute value of the entries of the step, slacks
included. -/
theorem C108_primal (d : Dims) (v : Vecs K) : IsNorm (d.primal v) (primalNorm d v) := by
  refine norm_congr _ _ _ (fun a => ?_) (fold_norm _
    (fun i a => ∃ j, j < d.nx i + d.nu i + 2 * d.ns i ∧ v.ux i j = a)
    (fun P r i h => cmax_norm _ _ _ _ h (nrmInf_norm _ _)) _ _ zero_norm (d.N + 1))
  constructor
  · rintro (h | ⟨i, hi, j, hj, h⟩)
    · exact h.elim
    · exact ⟨i, j, by omega, hj, h⟩
  · rintro ⟨i, j, hi, hj, h⟩
    exact Or.inr ⟨i, by omega, j, hj, h⟩

/-- **C108.** The norm of a dual step is the largest absolute value of its multipliers. -/
theorem C108_dual (d : Dims) (v : Vecs K) : IsNorm (d.dual v) (dualNorm d v) := by
  refine norm_congr _ _ _ (fun a => ?_) (fold_norm _
    (fun i a => ∃ j, j < 2 * d.ni i ∧ v.lam i j = a)
    (fun P r i h => cmax_norm _ _ _ _ h (nrmInf_norm _ _)) _ _ (fold_norm _
    (fun i a => ∃ j, j < d.nx (i + 1) ∧ v.pi i j = a)
    (fun P r i h => cmax_norm _ _ _ _ h (nrmInf_norm _ _)) _ _ zero_norm d.N) (d.N + 1))
  constructor
  · rintro ((h | ⟨i, hi, j, hj, h⟩) | ⟨i, hi, j, hj, h⟩)
    · exact h.elim
    · exact Or.inl ⟨i, j, hi, hj, h⟩
    · exact Or.inr ⟨i, j, by omega, hj, h⟩
  · rintro (⟨i, j, hi, hj, h⟩ | ⟨i, j, hi, hj, h⟩)
    · exact Or.inl (Or.inr ⟨i, hi, j, hj, h⟩)
    · exact Or.inr ⟨i, by omega, j, hj, h⟩

/-- **C108.** The dual step norm is the largest absolute change of a multiplier. -/
theorem C108_delta_dual (d : Dims) (old qp : Vecs K) :
    IsNorm (d.dual (diff qp old)) (deltaDual d old qp) := by
  refine norm_congr _ _ _ (fun a => ?_) (fold_norm _
    (fun i a => (∃ j, j < 2 * d.ni i ∧ qp.lam i j + (-1) * old.lam i j = a) ∨
      (i < d.N ∧ ∃ j, j < d.nx (i + 1) ∧ qp.pi i j + (-1) * old.pi i j = a))
    (fun P r i h => ?_) _ _ zero_norm (d.N + 1))
  · have e : ∀ x y : K, x + (-1) * y = x - y := fun x y => by ring
    simp only [e]
    constructor
    · rintro (h | ⟨i, hi, (⟨j, hj, h⟩ | ⟨hi', j, hj, h⟩)⟩)
      · exact h.elim
      · exact Or.inr ⟨i, j, by omega, hj, h⟩
      · exact Or.inl ⟨i, j, hi', hj, h⟩
    · rintro (⟨i, j, hi, hj, h⟩ | ⟨i, j, hi, hj, h⟩)
      · exact Or.inr ⟨i, by omega, Or.inr ⟨hi, j, hj, h⟩⟩
      · exact Or.inr ⟨i, by omega, Or.inl ⟨j, hj, h⟩⟩
  · have h1 := cmax_norm _ _ _ _ h
      (nrmInf_norm (2 * d.ni i) (fun j => qp.lam i j + (-1) * old.lam i j))
    by_cases hi : i < d.N
    · simp only [hi, if_true]
      refine norm_congr _ _ _ (fun a => ?_) (cmax_norm _ _ _ _ h1
        (nrmInf_norm (d.nx (i + 1)) (fun j => qp.pi i j + (-1) * old.pi i j)))
      simp only [true_and, or_assoc]
    · simp only [hi, if_false]
      refine norm_congr _ _ _ (fun a => ?_) h1
      simp only [false_and, or_false]

/-- **C108.** The dual step norm is zero exactly if no multiplier changes. -/
theorem C108_dual_zero [IsStrictOrderedRing K] (d : Dims) (old qp : Vecs K) :
    deltaDual d old qp = 0 ↔ (∀ i j, i < d.N → j < d.nx (i + 1) → qp.pi i j = old.pi i j) ∧
      ∀ i j, i ≤ d.N → j < 2 * d.ni i → qp.lam i j = old.lam i j := by
  obtain ⟨-, h2, h3⟩ := C108_delta_dual d old qp
  constructor
  · intro h
    rw [h] at h2
    have key : ∀ a, d.dual (diff qp old) a → a = 0 := fun a ha =>
      abs_eq_zero.1 (le_antisymm (h2 a ha) (abs_nonneg a))
    exact ⟨fun i j hi hj => sub_eq_zero.1 (key _ (Or.inl ⟨i, j, hi, hj, rfl⟩)),
      fun i j hi hj => sub_eq_zero.1 (key _ (Or.inr ⟨i, j, hi, hj, rfl⟩))⟩
  · rintro ⟨e1, e2⟩
    rcases h3 with h3 | ⟨a, ha, hn⟩
    · exact h3
    · rw [← hn]
      rcases ha with ⟨i, j, hi, hj, rfl⟩ | ⟨i, j, hi, hj, rfl⟩
      · simp [diff, e1 i j hi hj]
      · simp [diff, e2 i j hi hj]

/-! ### Logging -/

/-- The norm that is logged for a dual step. -/
def dualOf (d : Dims) (s : Step K) : K :=
  match s.anderson with
  | none => deltaDual d s.old s.qp
  | some v => dualNorm d v

theorem log_step (d : Dims) (s : Step K) (l : Log K) :
    (logGlob d s (logQp d s l)).iter = l.iter ∧
    (logGlob d s (logQp d s l)).primal = put (logQp d s l).primal l.iter (primalNorm d s.primal) ∧
    (logGlob d s (logQp d s l)).dual = put l.dual l.iter (dualOf d s) ∧
    (∀ j, j ≠ l.iter → (logQp d s l).primal j = l.primal j) := by
  rcases ha : s.anderson with _ | v
  · refine ⟨by simp [logGlob, logQp, ha], ?_, by simp [logGlob, logQp, dualOf, ha],
      fun j hj => by simp [logQp, ha, put, hj]⟩
    funext j
    by_cases hj : j = l.iter <;> simp [logGlob, logQp, ha, put, Step.primal, hj]
  · refine ⟨by simp [logGlob, logQp, ha], ?_, by simp [logGlob, logQp, dualOf, ha],
      fun j hj => by simp [logQp, ha, put, hj]⟩
    simp [logGlob, logQp, ha, Step.primal]

theorem loop_ok (d : Dims) (steps : List (Step K)) (rest : List (It K)) (l : Log K) :
    ∃ l', loop d (steps.map .ok ++ rest) l = loop d rest l' ∧ l'.iter = l.iter + steps.length ∧
      (∀ j, j < l.iter ∨ l.iter + steps.length ≤ j → l'.primal j = l.primal j ∧ l'.dual j = l.dual j) ∧
      ∀ k s, steps[k]? = some s →
        l'.primal (l.iter + k) = primalNorm d s.primal ∧ l'.dual (l.iter + k) = dualOf d s := by
  induction steps generalizing l with
  | nil => exact ⟨l, rfl, rfl, fun _ _ => ⟨rfl, rfl⟩, fun k s h => by simp at h⟩
  | cons s steps ih =>
    obtain ⟨h1, h2, h3, h4⟩ := log_step d s l
    obtain ⟨l', e1, e2, e3, e4⟩ := ih
      { logGlob d s (logQp d s l) with iter := (logGlob d s (logQp d s l)).iter + 1 }
    simp only [h1] at e2 e3 e4
    refine ⟨l', e1, by rw [e2, List.length_cons]; omega, fun j hj => ?_, fun k t hk => ?_⟩
    · rw [List.length_cons] at hj
      obtain ⟨p1, p2⟩ := e3 j (by omega)
      have hne : j ≠ l.iter := by omega
      rw [p1, p2, h2, h3]
      simp only [put, if_neg hne]
      exact ⟨h4 j hne, trivial⟩
    · cases k with
      | zero =>
        obtain rfl : s = t := by simpa using hk
        obtain ⟨p1, p2⟩ := e3 l.iter (by omega)
        rw [Nat.add_zero, p1, p2, h2, h3]
        simp [put]
      | succ k =>
        have := e4 k t (by simpa using hk)
        rw [show l.iter + (k + 1) = l.iter + 1 + k by omega]
        exact this

/-- **C108.** After a call in which no QP failed, the user reads one primal and one dual norm for
every step that was taken, in order, each of the step of this iteration; also if the globalization
fails at last, and whatever was logged before. -/
theorem C108_logged_partial (d : Dims) (steps : List (Step K)) (last : List (It K))
    (hl : last = [] ∨ ∃ s, last = [.globFail s]) (l : Log K) :
    let r := solve d (steps.map .ok ++ last) l
    List.Forall₂ (fun s n => IsNorm (d.primal s.primal) n) steps r.getPrimal ∧
    List.Forall₂ (fun s n => IsNorm (d.dual s.dual) n) steps r.getDual := by
  intro r
  obtain ⟨l', e1, e2, -, e4⟩ := loop_ok d steps last { l with iter := 0 }
  simp only [Nat.zero_add] at e2 e4
  have hr : r.iter = steps.length ∧ ∀ j, j < steps.length → r.primal j = l'.primal j ∧ r.dual j = l'.dual j := by
    have hr0 : r = loop d last l' := e1
    rcases hl with rfl | ⟨s, rfl⟩
    · rw [hr0]
      exact ⟨e2, fun _ _ => ⟨rfl, rfl⟩⟩
    · have : r = logQp d s l' := hr0
      rw [this]
      unfold logQp
      rcases s.anderson with _ | v
      · refine ⟨e2, fun j hj => ?_⟩
        have hne : j ≠ l'.iter := by omega
        simp [put, hne]
      · refine ⟨e2, fun j hj => ?_⟩
        have hne : j ≠ l'.iter := by omega
        simp [put, hne]
  obtain ⟨hit, hval⟩ := hr
  have hd : ∀ s : Step K, IsNorm (d.dual s.dual) (dualOf d s) := fun s => by
    unfold dualOf Step.dual
    rcases s.anderson with _ | v
    · exact C108_delta_dual d s.old s.qp
    · exact C108_dual d v
  constructor
  · refine List.forall₂_iff_get.2 ⟨by simp [Log.getPrimal, hit], fun k h1 h2 => ?_⟩
    have := (e4 k steps[k] (List.getElem?_eq_getElem h1)).1
    simp only [Log.getPrimal, List.get_eq_getElem, List.getElem_map, List.getElem_range]
    rw [(hval k h1).1, this]
    exact C108_primal d _
  · refine List.forall₂_iff_get.2 ⟨by simp [Log.getDual, hit], fun k h1 h2 => ?_⟩
    have := (e4 k steps[k] (List.getElem?_eq_getElem h1)).2
    simp only [Log.getDual, List.get_eq_getElem, List.getElem_map, List.getElem_range]
    rw [(hval k h1).2, this]
    exact hd _

/-- **C108.** After a failure of the QP solver the last value read is not of this call: it is what the
memory held before. -/
theorem C108_qp_failure_false (d : Dims) (steps : List (Step K)) (l : Log K) :
    let r := solve d (steps.map .ok ++ [.qpFail]) l
    r.getPrimal.getLast? = some (l.primal steps.length) ∧
    r.getDual.getLast? = some (l.dual steps.length) := by
  intro r
  obtain ⟨l', e1, e2, e3, -⟩ := loop_ok d steps [.qpFail] { l with iter := 0 }
  simp only [Nat.zero_add] at e2 e3
  have hr : r = { l' with iter := l'.iter + 1 } := e1
  rw [hr]
  simp only [Log.getPrimal, Log.getDual, List.range_succ, List.map_append, List.map_cons, List.map_nil,
    List.getLast?_concat, e2]
  exact ⟨congrArg some (e3 _ (Or.inr le_rfl)).1, congrArg some (e3 _ (Or.inr le_rfl)).2⟩

end

/-! ### Examples -/

/-- One interval, one state, one control at the initial stage, one inequality per stage. -/
def exDims : Dims := ⟨1, fun _ => 1, fun i => if i = 0 then 1 else 0, fun _ => 0, fun _ => 1⟩

/-- A step. -/
def exStep : Step ℚ :=
  ⟨⟨fun i _ => if i = 0 then -3 else 2, fun _ _ => 5, fun _ j => j⟩,
    ⟨fun _ _ => 0, fun _ _ => 9, fun _ _ => 0⟩, none⟩

example : (solve exDims [.ok exStep, .ok exStep] ⟨7, fun _ => 0, fun _ => 0⟩).getPrimal = [3, 3] ∧
    (solve exDims [.ok exStep, .ok exStep] ⟨7, fun _ => 0, fun _ => 0⟩).getDual = [4, 4] := by
  decide +kernel

/-- After a failed call the norm of an earlier call is read. -/
example : (solve exDims [.qpFail] (solve exDims [.ok exStep] ⟨0, fun _ => 0, fun _ => 0⟩)).getPrimal
    = [3] := by decide +kernel

end Acados.StepNorm
