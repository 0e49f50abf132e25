import Verif.Lemmas.DetectCon
import Mathlib.Algebra.Order.Ring.Rat
import Mathlib.Data.Rat.BigOperators
/-!
# C90: constraint detection does not change the feasible set
-/
namespace Acados.DetectCon
variable {K : Type} [Field K] [LinearOrder K] [IsStrictOrderedRing K]
open Finset

/-- what is known of a constraint: CasADi reports as linear only affine functions and gives their gradient -/
def Reported (nx nu : Nat) (it : Item K) : Prop := it.con.lin = true → AffineWith nx nu it.con.fn it.con.J

/-- the proviso: a linear constraint has no constant, and if it has a single variable the coefficient is positive -/
def Plain (nx nu : Nat) (it : Item K) : Prop :=
  it.con.lin = true → it.con.fn (fun _ => 0) (fun _ => 0) (fun _ => 0) = 0
    ∧ ∀ i < nx + nu, it.con.J i ≠ 0 → (∀ k < nx + nu, k ≠ i → it.con.J k = 0) → 0 < it.con.J i

theorem plain_pos (nx nu : Nat) (it : Item K) (h : Plain nx nu it) (hl : it.con.lin = true) (i : Nat) (hi : nonzeros (nx + nu) it.con.J = [i]) :
    0 < it.con.J i := by
  have hm := mem_nonzeros.1 (show i ∈ nonzeros (nx + nu) it.con.J by rw [hi]; simp)
  refine (h hl).2 i hm.1 hm.2 ?_
  intro k hk hne
  by_contra hc
  have : k ∈ nonzeros (nx + nu) it.con.J := mem_nonzeros.2 ⟨hk, hc⟩
  rw [hi] at this
  exact hne (by simpa using this)

theorem plain_collect (nx nu : Nat) (l : List (Item K)) (hr : ∀ it ∈ l, Reported nx nu it) (hp : ∀ it ∈ l, Plain nx nu it) (x u w : Nat → K) :
    Feas nx nu (collect nx nu l) x u w ↔ ∀ it ∈ l, Within it.lb it.ub (it.con.fn x u w) := by
  rw [feas_collect nx nu l hr (fun it hit hl i hi => plain_pos nx nu it (hp it hit) hl i hi)]
  refine forall₂_congr fun it hit => ?_
  unfold Item.ok
  split
  · rename_i hl
    rw [(hp it hit hl).1, sub_zero]
  · rw [sub_zero]

/-- path stages: if linear constraints have no constant and bounds positive coefficients, and the problem had no bounds and linear
constraints of the kinds found, the feasible points are the same -/
theorem C90_path_partial (nx nu : Nat) (p : Prob K) (hr : ∀ it ∈ p.path.h, Reported nx nu it) (hp : ∀ it ∈ p.path.h, Plain nx nu it)
    (hg : p.path.g = []) (hbx : p.path.bx = []) (hbu : p.path.bu = []) (x u w : Nat → K) :
    Feas nx nu (detectPath nx nu p).path x u w ↔ Feas nx nu p.path x u w := by
  have h := plain_collect nx nu p.path.h hr hp x u w
  unfold detectPath
  dsimp only
  unfold Feas at h ⊢
  dsimp only
  rw [forall_repl _ _ _ (Or.inr hg), forall_repl _ _ _ (Or.inr hbx), forall_repl _ _ _ (Or.inr hbu)]
  rw [← h]
  tauto

/-- nonlinear constraints are kept, in their order and with their bounds, and no others -/
theorem C90_nonlinear (nx nu : Nat) (p : Prob K) :
    (detectPath nx nu p).path.h = p.path.h.filter (fun it => it.con.lin = false)
    ∧ (detectInitial nx nu p).h0 = p.h0.filter (fun it => it.con.lin = false)
    ∧ ∀ q, detectTerminal nx nu p = some q → q.term.h = p.term.h.filter fun it => it.con.lin = false := by
  refine ⟨collect_h nx nu _, collect_h nx nu _, ?_⟩
  intro q hq
  unfold detectTerminal at hq
  dsimp only at hq
  split at hq
  · cases hq
  · cases hq
    exact collect_h nx nu _

/-- terminal stage: refused if the constraints depend on controls, otherwise, with the same provisos, the feasible points are the same -/
theorem C90_terminal_partial (nx nu : Nat) (p : Prob K) (hr : ∀ it ∈ p.term.h, Reported nx nu it) (hp : ∀ it ∈ p.term.h, Plain nx nu it)
    (hg : p.term.g = []) (hbx : p.term.bx = []) :
    ((∃ it ∈ p.term.h, it.con.depU = true) → detectTerminal nx nu p = none)
    ∧ ∀ q, detectTerminal nx nu p = some q → ∀ x u w, Feas nx nu q.term x u w ↔ Feas nx nu p.term x u w := by
  constructor
  · rintro ⟨it, hit, hd⟩
    unfold detectTerminal
    dsimp only
    rw [if_pos]
    rw [Bool.or_eq_true, Bool.or_eq_true]
    exact Or.inl (Or.inl (List.any_eq_true.2 ⟨it, hit, hd⟩))
  · intro q hq x u w
    have h := plain_collect nx nu p.term.h hr hp x u w
    unfold detectTerminal at hq
    dsimp only at hq
    split at hq
    · cases hq
    · rename_i hc
      cases hq
      rw [Bool.or_eq_true, Bool.or_eq_true, not_or, not_or] at hc
      obtain ⟨⟨_, hbu⟩, hd⟩ := hc
      have hbu : (collect nx nu p.term.h).bu = [] := by simpa using hbu
      have hd0 : ∀ r ∈ (collect nx nu p.term.h).g, ∀ j ∈ range nu, r.2.1 j = 0 := by
        intro r hr' j hj
        by_contra hne
        apply hd
        rw [List.any_eq_true]
        refine ⟨r, hr', ?_⟩
        rw [List.any_eq_true]
        exact ⟨j, List.mem_range.2 (mem_range.1 hj), by simpa using hne⟩
      have hgE : (∀ r ∈ (collect nx nu p.term.h).g.map (fun r => (r.1, (fun _ => (0 : K)), r.2.2.1, r.2.2.2)),
            Within r.2.2.1 r.2.2.2 ((∑ i ∈ range nx, r.1 i * x i) + ∑ i ∈ range nu, r.2.1 i * u i))
          ↔ ∀ r ∈ (collect nx nu p.term.h).g, Within r.2.2.1 r.2.2.2 ((∑ i ∈ range nx, r.1 i * x i) + ∑ i ∈ range nu, r.2.1 i * u i) := by
        rw [List.forall_mem_map]
        refine forall₂_congr fun r hr' => ?_
        dsimp only
        rw [Finset.sum_eq_zero (s := range nu) (fun j _ => zero_mul (u j)), Finset.sum_eq_zero (s := range nu) (f := fun i => r.2.1 i * u i)
          (fun j hj => by rw [hd0 r hr' j hj, zero_mul])]
      unfold Feas at h ⊢
      dsimp only
      rw [forall_repl _ _ _ (Or.inr hg), forall_repl _ _ _ (Or.inr hbx), hgE, ← h, hbu]
      simp only [List.not_mem_nil, false_implies, implies_true]
      tauto

/-- initial stage: with the same provisos the feasible points of the initial stage are the same; those of the path are, if the constraints
found there are bounds on states -/
theorem C90_initial_partial (nx nu : Nat) (p : Prob K) (hr : ∀ it ∈ p.h0, Reported nx nu it) (hp : ∀ it ∈ p.h0, Plain nx nu it)
    (hg : p.path.g = []) (hbx : p.bx0 = []) (hbu : p.path.bu = []) :
    (∀ x u w, Feas nx nu (detectInitial nx nu p).initial x u w ↔ Feas nx nu p.initial x u w)
    ∧ ((collect nx nu p.h0).g = [] → (collect nx nu p.h0).bu = [] → (detectInitial nx nu p).path = p.path) := by
  constructor
  · intro x u w
    have h := plain_collect nx nu p.h0 hr hp x u w
    unfold detectInitial Prob.initial
    dsimp only
    unfold Feas at h ⊢
    dsimp only
    rw [forall_repl _ _ _ (Or.inr hg), forall_repl _ _ _ (Or.inr hbx), forall_repl _ _ _ (Or.inr hbu), ← h]
    tauto
  · intro h1 h2
    unfold detectInitial
    dsimp only
    rw [h1, h2]
    rfl

/-- an affine constraint `a x₀ + b x₁ + d u₀ + c` of two states and one control -/
def exCon (a b d c : ℚ) : Con ℚ :=
  ⟨fun x u _ => a * x 0 + b * x 1 + d * u 0 + c, true, decide (d ≠ 0), fun i => match i with | 0 => a | 1 => b | 2 => d | _ => 0⟩

theorem ex_reported (a b d c lb ub : ℚ) : Reported 2 1 ⟨exCon a b d c, lb, ub⟩ := by
  intro _ x u w
  simp only [exCon, sum_range_succ, sum_range_zero, mul_zero, zero_add, add_zero]

/-- a nonlinear constraint -/
def exNl : Con ℚ := ⟨fun x _ _ => x 0 * x 1, false, false, fun _ => 0⟩

def exProb : Prob ℚ :=
  ⟨⟨[⟨exCon 2 0 0 0, -4, 6⟩, ⟨exNl, 0, 1⟩, ⟨exCon 1 1 0 0, 0, 3⟩, ⟨exCon 0 0 1 0, -1, 1⟩], [], [], []⟩, [], [], ⟨[⟨exCon 0 3 0 0, 0, 3⟩], [], [], []⟩⟩

example : (detectPath 2 1 exProb).path.bx = [(0, -2, 3)] ∧ (detectPath 2 1 exProb).path.bu = [(0, -1, 1)]
    ∧ (detectPath 2 1 exProb).path.g.map (fun r => (r.1 0, r.1 1, r.2.1 0, r.2.2)) = [(1, 1, 0, 0, 3)]
    ∧ (detectPath 2 1 exProb).path.h.length = 1
    ∧ (detectTerminal 2 1 exProb).map (·.term.bx) = some [(1, 0, 1)] := by decide +kernel

example : (∀ it ∈ exProb.path.h, Reported 2 1 it) ∧ ∀ it ∈ exProb.path.h, Plain 2 1 it := by
  constructor
  · intro it hit
    simp only [exProb, List.mem_cons, List.not_mem_nil, or_false] at hit
    rcases hit with rfl | rfl | rfl | rfl
    · exact ex_reported _ _ _ _ _ _
    · intro h; cases h
    · exact ex_reported _ _ _ _ _ _
    · exact ex_reported _ _ _ _ _ _
  · intro it hit
    simp only [exProb, List.mem_cons, List.not_mem_nil, or_false] at hit
    rcases hit with rfl | rfl | rfl | rfl
    · exact fun _ => ⟨by decide +kernel, by decide +kernel⟩
    · intro h; cases h
    · exact fun _ => ⟨by decide +kernel, by decide +kernel⟩
    · exact fun _ => ⟨by decide +kernel, by decide +kernel⟩

/-- a problem with one constraint -/
def exOne (it : Item ℚ) : Prob ℚ := ⟨⟨[it], [], [], []⟩, [], [], ⟨[], [], [], []⟩⟩

/-- a constant in a linear constraint is lost: `x₀ + 1 ≤ 2` becomes `x₀ ≤ 2`; a negative coefficient exchanges the bounds:
`0 ≤ -x₀ ≤ 1` becomes `0 ≤ x₀ ≤ -1`, which no point satisfies -/
theorem C90_path_false :
    (∃ p : Prob ℚ, (∀ it ∈ p.path.h, Reported 2 1 it) ∧ p.path.g = [] ∧ p.path.bx = [] ∧ p.path.bu = []
      ∧ ∃ x u w, Feas 2 1 (detectPath 2 1 p).path x u w ∧ ¬ Feas 2 1 p.path x u w)
    ∧ ∃ p : Prob ℚ, (∀ it ∈ p.path.h, Reported 2 1 it) ∧ p.path.g = [] ∧ p.path.bx = [] ∧ p.path.bu = []
      ∧ (∃ x u w, Feas 2 1 p.path x u w) ∧ ∀ x u w, ¬ Feas 2 1 (detectPath 2 1 p).path x u w := by
  constructor
  · refine ⟨exOne ⟨exCon 1 0 0 1, -10, 2⟩, ?_, rfl, rfl, rfl, fun _ => 2, fun _ => 0, fun _ => 0, ?_, ?_⟩
    · intro it hit
      rw [show it = ⟨exCon 1 0 0 1, -10, 2⟩ by simpa [exOne] using hit]
      exact ex_reported _ _ _ _ _ _
    · have e : (detectPath 2 1 (exOne ⟨exCon 1 0 0 1, -10, 2⟩)).path = ⟨[], [], [(0, -10 / 1, 2 / 1)], []⟩ := rfl
      rw [e]
      unfold Feas Within
      norm_num
    · intro h
      have := h.1 ⟨exCon 1 0 0 1, -10, 2⟩ (by simp [exOne])
      unfold Within exCon at this
      norm_num at this
  · refine ⟨exOne ⟨exCon (-1) 0 0 0, 0, 1⟩, ?_, rfl, rfl, rfl, ⟨fun _ => 0, fun _ => 0, fun _ => 0, ?_⟩, ?_⟩
    · intro it hit
      rw [show it = ⟨exCon (-1) 0 0 0, 0, 1⟩ by simpa [exOne] using hit]
      exact ex_reported _ _ _ _ _ _
    · unfold Feas exOne Within exCon
      norm_num
    · intro x u w h
      have e : (detectPath 2 1 (exOne ⟨exCon (-1) 0 0 0, 0, 1⟩)).path = ⟨[], [], [(0, 0 / -1, 1 / -1)], []⟩ := rfl
      rw [e] at h
      have := h.2.2.1 _ List.mem_cons_self
      unfold Within at this
      norm_num at this
      linarith

/-- bounds the problem had before are replaced: after `-1 ≤ x₀ ≤ 1` and the constraint `x₁ ≤ 5` the point `x₀ = 2` is feasible; and a
bound on controls or a linear constraint found for the initial stage holds for all stages, one found for the path also for the initial
stage -/
theorem C90_scope_false :
    (∃ p : Prob ℚ, (∀ it ∈ p.path.h, Reported 2 1 it ∧ Plain 2 1 it)
      ∧ ∃ x u w, Feas 2 1 (detectPath 2 1 p).path x u w ∧ ¬ Feas 2 1 p.path x u w)
    ∧ (∃ p : Prob ℚ, (∀ it ∈ p.h0, Reported 2 1 it ∧ Plain 2 1 it) ∧ p.path = ⟨[], [], [], []⟩
      ∧ ∃ x u w, Feas 2 1 p.path x u w ∧ ¬ Feas 2 1 (detectInitial 2 1 p).path x u w)
    ∧ ∃ p : Prob ℚ, (∀ it ∈ p.path.h, Reported 2 1 it ∧ Plain 2 1 it) ∧ p.initial = ⟨[], [], [], []⟩
      ∧ ∃ x u w, Feas 2 1 p.initial x u w ∧ ¬ Feas 2 1 (detectPath 2 1 p).initial x u w := by
  have hplain : ∀ it : Item ℚ, (it = ⟨exCon 0 1 0 0, -5, 5⟩ ∨ it = ⟨exCon 0 0 1 0, 0, 5⟩) → Reported 2 1 it ∧ Plain 2 1 it := by
    rintro it (rfl | rfl)
    · exact ⟨ex_reported _ _ _ _ _ _, fun _ => ⟨by decide +kernel, by decide +kernel⟩⟩
    · exact ⟨ex_reported _ _ _ _ _ _, fun _ => ⟨by decide +kernel, by decide +kernel⟩⟩
  refine ⟨?_, ?_, ?_⟩
  · refine ⟨⟨⟨[⟨exCon 0 1 0 0, -5, 5⟩], [], [(0, -1, 1)], []⟩, [], [], ⟨[], [], [], []⟩⟩, ?_, fun _ => 2, fun _ => 0, fun _ => 0, ?_, ?_⟩
    · intro it hit
      exact hplain it (Or.inl (by simpa using hit))
    · show Feas 2 1 ⟨[], [], [(1, -5 / 1, 5 / 1)], []⟩ _ _ _
      unfold Feas Within
      norm_num
    · intro h
      have := h.2.2.1 (0, -1, 1) (by simp)
      unfold Within at this
      norm_num at this
  · refine ⟨⟨⟨[], [], [], []⟩, [⟨exCon 0 0 1 0, 0, 5⟩], [], ⟨[], [], [], []⟩⟩, ?_, rfl, fun _ => 0, fun _ => -1, fun _ => 0, ?_, ?_⟩
    · intro it hit
      exact hplain it (Or.inr (by simpa using hit))
    · unfold Feas
      simp
    · intro h
      have h : Feas 2 1 ⟨[], [], [], [(0, 0 / 1, 5 / 1)]⟩ (fun _ => (0 : ℚ)) (fun _ => -1) (fun _ => 0) := h
      have := h.2.2.2 _ List.mem_cons_self
      unfold Within at this
      norm_num at this
  · refine ⟨⟨⟨[⟨exCon 0 0 1 0, 0, 5⟩], [], [], []⟩, [], [], ⟨[], [], [], []⟩⟩, ?_, rfl, fun _ => 0, fun _ => -1, fun _ => 0, ?_, ?_⟩
    · intro it hit
      exact hplain it (Or.inr (by simpa using hit))
    · unfold Feas Prob.initial
      simp
    · intro h
      have h : Feas 2 1 ⟨[], [], [], [(0, 0 / 1, 5 / 1)]⟩ (fun _ => (0 : ℚ)) (fun _ => -1) (fun _ => 0) := h
      have := h.2.2.2 _ List.mem_cons_self
      unfold Within at this
      norm_num at this

end Acados.DetectCon
