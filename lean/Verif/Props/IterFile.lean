import Verif.Lemmas.IterFile
import Mathlib.Algebra.Order.Ring.Rat
/-!
# C87: iterates as objects and in files
-/
namespace Acados.IterFile
variable {K : Type}

/-- C87: the iterate object holds the values of the solver: one vector per stage for states, slacks and inequality multipliers, one
per stage but the last for controls, algebraic states and multipliers of the dynamics. -/
theorem C87_get (s : Solver K) : s.Holds (getIterate s) := getIterate_holds s

/-- C87 (partial: same sizes): an iterate stored in a file by one solver and loaded by another solver of the same size, whatever
the order of the keys in the file, gives the second solver the values of the first; only multipliers of constraints masked in the
second solver are zero.  Loading does not raise. -/
theorem C87_file_partial [Mul K] (s t : Solver K) (hst : SameSize s t) (hs : s.Fits) (ht : t.Fits) (d : Data K) (hd : d.Perm (store s)) :
    (load d t).1 = true ∧
      (∀ f : Fld, f ≠ .lam → ∀ i < f.count s.N, (load d t).2.val i f = s.val i f) ∧
      (∀ i ≤ s.N, (load d t).2.val i .lam = Masked (t.mask i) (s.val i .lam)) ∧
      ∀ f : Fld, ∀ i, ¬ i < f.count s.N → (load d t).2.val i f = t.val i f := by
  have hg := getIterate_holds s
  have hS := (store_stands hg).perm hd
  rw [hst.1] at hS
  have hv : ∀ f : Fld, ∀ i < f.count t.N, (getIterate s f)[i]? = some (s.val i f) := fun f i hi => hg.2 f i (hst.1 ▸ hi)
  obtain ⟨h1, h2, h3⟩ := hS.load_eq (hst.1 ▸ hg.1) (by
    intro f i hi v hfv
    rw [hv f i hi] at hfv
    cases hfv
    have hi' : i < f.count s.N := hst.1.symm ▸ hi
    exact (hs f i hi').trans (hst.2 f i hi')) (fun f i hi => ht f i hi)
  refine ⟨h1, ?_, ?_, ?_⟩
  · intro f hf i hi
    rw [hst.1] at hi
    rw [h2 f i hi _ (hv f i hi)]
    exact if_neg hf
  · intro i hi
    have hi : i < Fld.lam.count t.N := by
      rw [← hst.1]
      exact Nat.lt_succ_of_le hi
    rw [h2 .lam i hi _ (hv .lam i hi)]
    exact if_pos rfl
  · intro f i hi
    exact h3 f i (hst.1 ▸ hi)

/-- C87 (partial: same sizes): the same for an iterate object that is given to another solver. -/
theorem C87_object_partial [Mul K] (s t : Solver K) (hst : SameSize s t) (hs : s.Fits) :
    (setIterate (getIterate s) t).1 = true ∧
      (∀ f : Fld, f ≠ .lam → ∀ i < f.count s.N, (setIterate (getIterate s) t).2.val i f = s.val i f) ∧
      (∀ i ≤ s.N, (setIterate (getIterate s) t).2.val i .lam = Masked (t.mask i) (s.val i .lam)) ∧
      ∀ f : Fld, ∀ i, ¬ i < f.count s.N → (setIterate (getIterate s) t).2.val i f = t.val i f := by
  have hg := getIterate_holds s
  have hv : ∀ f : Fld, ∀ i < f.count t.N, (getIterate s f)[i]? = some (s.val i f) := fun f i hi => hg.2 f i (hst.1 ▸ hi)
  obtain ⟨h1, h2, h3⟩ := setIterate_eq (s := t) (it := getIterate s) (hst.1 ▸ hg.1) (by
    intro f i hi v hfv
    rw [hv f i hi] at hfv
    cases hfv
    have hi' : i < f.count s.N := hst.1.symm ▸ hi
    exact (hs f i hi').trans (hst.2 f i hi'))
  refine ⟨h1, ?_, ?_, ?_⟩
  · intro f hf i hi
    rw [hst.1] at hi
    rw [h2 f i hi _ (hv f i hi)]
    exact if_neg hf
  · intro i hi
    have hi : i < Fld.lam.count t.N := by
      rw [← hst.1]
      exact Nat.lt_succ_of_le hi
    rw [h2 .lam i hi _ (hv .lam i hi)]
    exact if_pos rfl
  · intro f i hi
    exact h3 f i (hst.1 ▸ hi)

/-- C87: an iterate that came from a solver whose multipliers of masked constraints are zero is restored in that solver, whatever
happened to the values of the solver in between. -/
theorem C87_restore [Mul K] (s : Solver K) (hs : s.Fits) (hm : ∀ i ≤ s.N, Masked (s.mask i) (s.val i .lam) = s.val i .lam)
    (val : Nat → Fld → List K) :
    (setIterate (getIterate s) { s with val := val }).1 = true ∧
      ∀ f : Fld, ∀ i < f.count s.N, (setIterate (getIterate s) { s with val := val }).2.val i f = s.val i f := by
  obtain ⟨h1, h2, h3, _⟩ := C87_object_partial s { s with val := val } ⟨rfl, fun _ _ _ => rfl⟩ hs
  refine ⟨h1, fun f i hi => ?_⟩
  by_cases hf : f = .lam
  · subst hf
    have hi : i ≤ s.N := Nat.lt_succ_iff.1 hi
    exact (h3 i hi).trans (hm i hi)
  · exact h2 f hf i hi

/-- C87 (partial: some number at the terminal stage): an iterate written as JSON and read again, whatever the order of the keys, is
the same iterate, vectors of length zero included. -/
theorem C87_json_partial (it : Iterate K) (N : Nat) (hw : it.For N) (ht : it.TerminalData N) (d : Data K) (hd : d.Perm (toJson it)) :
    fromJson d = some it :=
  ((toJson_stands hw).perm hd).fromJson_eq hw ht

/-- C87 (partial: some number at the terminal stage): a file stored by a solver and read as iterate object is the iterate of the solver. -/
theorem C87_compatible_partial (s : Solver K) (ht : (getIterate s).TerminalData s.N) (d : Data K) (hd : d.Perm (store s)) :
    fromJson d = some (getIterate s) :=
  ((store_stands (getIterate_holds s)).perm hd).fromJson_eq (getIterate_holds s).1 ht

/-- C87: a JSON text of an iterate loaded as a file gives what the iterate object gives, for a solver of the size of the iterate. -/
theorem C87_json_load [Mul K] (it : Iterate K) (t : Solver K) (hw : it.For t.N)
    (hd : ∀ f : Fld, ∀ i < f.count t.N, ∀ v, (it f)[i]? = some v → v.length = t.dim i f) (ht : t.Fits) :
    (load (toJson it) t).1 = true ∧ (setIterate it t).1 = true ∧
      ∀ i f, (load (toJson it) t).2.val i f = (setIterate it t).2.val i f := by
  obtain ⟨h1, h2, h3⟩ := (toJson_stands hw).load_eq hw hd ht
  obtain ⟨k1, k2, k3⟩ := setIterate_eq hw hd
  refine ⟨h1, k1, fun i f => ?_⟩
  by_cases hi : i < f.count t.N
  · have hi' : i < (it f).length := (hw f).symm ▸ hi
    rw [h2 f i hi _ (List.getElem?_eq_getElem hi'), k2 f i hi _ (List.getElem?_eq_getElem hi')]
  · rw [h3 f i hi, k3 f i hi]

/-- C87: different iterates of one size have different flattened iterates. -/
theorem C87_flatten (a b : Iterate K) (hl : ∀ f, (a f).map List.length = (b f).map List.length)
    (h : ∀ f, flatten a f = flatten b f) : a = b := by
  funext f
  exact List.eq_iff_flatten_eq.2 ⟨h f, hl f⟩

/-! ### non-vacuity and counterexamples -/

/-- horizon 10 with an empty terminal field, slacks at one stage and 12 multipliers -/
def exSolver : Solver ℚ where
  N := 10
  dim := fun i f => match f with
    | .x => 2 | .u => 1 | .z => 0 | .sl | .su => if i = 3 then 1 else 0 | .pi => 2 | .lam => 2
  mask := fun _ => [1, 0]
  val := fun i f => match f with
    | .x => [(i : ℚ), 1] | .u => [(i : ℚ) / 2] | .z => [] | .sl | .su => if i = 3 then [7] else [] | .pi => [1, (i : ℚ)]
    | .lam => [(i : ℚ), 0]

example : exSolver.Fits := by
  intro f i _
  cases f <;> simp only [exSolver] <;> first | rfl | (split <;> rfl)

example : (getIterate exSolver).TerminalData exSolver.N := ⟨.x, rfl, [10, 1], by decide +kernel, by decide⟩

example : ∀ i ≤ exSolver.N, Masked (exSolver.mask i) (exSolver.val i .lam) = exSolver.val i .lam := by
  intro i _
  show [1 * (i : ℚ), 0 * 0] = [(i : ℚ), 0]
  simp

/-- keys are padded to two digits -/
example : stageStr (strLen 10) 3 = [3, 0] ∧ stageStr (strLen 10) 10 = [0, 1] := by decide +kernel

/-- C87 is false without the conditions on the terminal stage: when the terminal stage has no numbers it is lost, and reading an
iterate without numbers raises. -/
theorem C87_json_false :
    (∃ it : Iterate ℚ, it.For 1 ∧ ∃ r, fromJson (toJson it) = some r ∧ r .x = [[5]] ∧ it .x = [[5], []]) ∧
      ∃ it : Iterate ℚ, it.For 1 ∧ fromJson (toJson it) = none := by
  refine ⟨⟨fun f => match f with | .x => [[5], []] | .u | .z | .pi => [[]] | _ => [[], []], ?_, _, rfl, ?_, rfl⟩,
    ⟨fun f => match f with | .x => [[], []] | .u | .z | .pi => [[]] | _ => [[], []], ?_, rfl⟩⟩
  · intro f; cases f <;> rfl
  · decide +kernel
  · intro f; cases f <;> rfl

/-- C87 is false for other sizes: loading an iterate of a longer horizon raises after stages of the solver have been overwritten,
and loading one of a shorter horizon is accepted and leaves later stages as they were. -/
theorem C87_size_false :
    (∃ s t : Solver ℚ, t.N < s.N ∧ (load (store s) t).1 = false ∧ (load (store s) t).2.val 0 .x ≠ t.val 0 .x) ∧
      ∃ s t : Solver ℚ, s.N < t.N ∧ (load (store s) t).1 = true ∧ (load (store s) t).2.val 0 .x = s.val 0 .x ∧
        (load (store s) t).2.val t.N .x = t.val t.N .x := by
  let mk (N : Nat) (c : ℚ) : Solver ℚ :=
    ⟨N, fun _ f => if f = .x then 1 else 0, fun _ => [], fun _ f => if f = .x then [c] else []⟩
  exact ⟨⟨mk 2 1, mk 1 0, by decide, by decide +kernel, by decide +kernel⟩,
    ⟨mk 1 1, mk 2 0, by decide, by decide +kernel, by decide +kernel, by decide +kernel⟩⟩

/-- C87: multipliers are not restored in a solver that masks the constraint. -/
theorem C87_mask_false : ∃ s t : Solver ℚ, SameSize s t ∧ s.Fits ∧ t.Fits ∧ (load (store s) t).1 = true ∧
    (load (store s) t).2.val 0 .lam ≠ s.val 0 .lam := by
  let mk (m : ℚ) : Solver ℚ :=
    ⟨1, fun _ f => if f = .lam then 1 else 0, fun _ => [m], fun _ f => if f = .lam then [3] else []⟩
  refine ⟨mk 1, mk 0, ⟨rfl, fun _ _ _ => rfl⟩, ?_, ?_, by decide +kernel, by decide +kernel⟩
  · intro f i _; cases f <;> rfl
  · intro f i _; cases f <;> rfl

end Acados.IterFile
