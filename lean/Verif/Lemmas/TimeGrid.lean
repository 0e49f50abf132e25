import Verif.Model.TimeGrid
import Verif.Spec.TimeGrid
import Mathlib.Tactic.Ring
import Mathlib.Tactic.Linarith
import Mathlib.Tactic.FieldSimp
import Mathlib.Tactic.LinearCombination
import Mathlib.Algebra.Order.AbsoluteValue.Basic

namespace Acados.TimeGrid

section
variable {K : Type} [Field K]

theorem cumsum_length (a : K) (l : List K) : (cumsum a l).length = l.length := by
  induction l generalizing a with
  | nil => rfl
  | cons x l ih => simp [cumsum, ih]

theorem nodes_get (a : K) (l : List K) (k : Nat) (hk : k ≤ l.length) :
    (a :: cumsum a l)[k]? = some (a + (l.take k).sum) := by
  induction l generalizing a k with
  | nil =>
      have : k = 0 := by simpa using hk
      subst this
      simp
  | cons x l ih =>
      cases k with
      | zero => simp
      | succ k =>
          have := ih (a + x) k (by simpa using hk)
          simp only [List.getElem?_cons_succ, cumsum, List.take_succ_cons, List.sum_cons]
          rw [this, add_assoc]

theorem nodesMatch_cumsum (a : K) (l : List K) : NodesMatch l (a :: cumsum a l) := by
  refine ⟨by simp [cumsum_length], ?_⟩
  intro k x y h hx hy hh
  have hk : k < l.length := (List.getElem?_eq_some_iff.mp hh).1
  rw [nodes_get a l k hk.le] at hx
  rw [nodes_get a l (k + 1) hk] at hy
  have h1 := List.take_add_one (l := l) (i := k)
  rw [hh] at h1
  rw [h1] at hy
  simp only [Option.toList_some, List.sum_append, List.sum_cons, List.sum_nil, add_zero,
    Option.some.injEq] at hx hy
  rw [← hx, ← hy]
  ring

theorem diffs_length (l : List K) : (diffs l).length = l.length - 1 := by
  match l with
  | [] => rfl
  | [_] => rfl
  | x :: y :: l =>
      have := diffs_length (y :: l)
      simp only [List.length_cons, Nat.add_sub_cancel] at this
      simp [diffs, this]

theorem diffs_get (l : List K) (k : Nat) (a b : K) (ha : l[k]? = some a) (hb : l[k + 1]? = some b) :
    (diffs l)[k]? = some (b - a) := by
  match l with
  | [] => simp at ha
  | [x] => simp at hb
  | x :: y :: l =>
      cases k with
      | zero =>
          simp only [List.getElem?_cons_zero, List.getElem?_cons_succ, Option.some.injEq] at ha hb
          simp [diffs, ha, hb]
      | succ k =>
          rw [List.getElem?_cons_succ] at ha hb
          simpa [diffs] using diffs_get (y :: l) k a b ha hb

theorem nodesMatch_diffs (l : List K) (hl : l ≠ []) : NodesMatch (diffs l) l := by
  have hp : 0 < l.length := List.length_pos_iff.mpr hl
  refine ⟨by rw [diffs_length]; omega, ?_⟩
  intro k a b h ha hb hh
  rw [diffs_get l k a b ha hb] at hh
  exact Option.some.inj hh

theorem diffs_sum (l : List K) (n : Nat) (a b : K) (hn : l.length = n + 1) (ha : l[0]? = some a)
    (hb : l[n]? = some b) : (diffs l).sum = b - a := by
  induction n generalizing l a with
  | zero =>
      match l, hn with
      | [x], _ =>
          rw [ha] at hb
          have : a = b := Option.some.inj hb
          simp [diffs, this]
  | succ n ih =>
      match l, hn with
      | x :: y :: l, hn =>
          have h1 := ih (y :: l) y (by simpa using hn) rfl (by simpa using hb)
          have hx : x = a := by simpa using ha
          simp only [diffs, List.sum_cons, h1, hx]
          ring

theorem sum_const (l : List K) (c : K) : (l.map (fun _ => c)).sum = (l.length : K) * c := by
  induction l with
  | nil => simp
  | cons x l ih => simp only [List.map_cons, List.sum_cons, ih, List.length_cons]; push_cast; ring

end

section
variable {K : Type} [Field K] [LinearOrder K] [IsStrictOrderedRing K]

omit [Field K] [IsStrictOrderedRing K] in
theorem maxL_bound (a : K) (l : List K) : a ≤ maxL a l ∧ ∀ x ∈ l, x ≤ maxL a l := by
  induction l generalizing a with
  | nil => exact ⟨le_rfl, by simp⟩
  | cons y l ih =>
      obtain ⟨h1, h2⟩ := ih (max a y)
      refine ⟨(le_max_left a y).trans h1, ?_⟩
      intro x hx
      rcases List.mem_cons.mp hx with rfl | hx
      · exact (le_max_right a x).trans h1
      · exact h2 x hx

omit [Field K] [IsStrictOrderedRing K] in
theorem minL_bound (a : K) (l : List K) : minL a l ≤ a ∧ ∀ x ∈ l, minL a l ≤ x := by
  induction l generalizing a with
  | nil => exact ⟨le_rfl, by simp⟩
  | cons y l ih =>
      obtain ⟨h1, h2⟩ := ih (min a y)
      refine ⟨h1.trans (min_le_left a y), ?_⟩
      intro x hx
      rcases List.mem_cons.mp hx with rfl | hx
      · exact h1.trans (min_le_right a x)
      · exact h2 x hx

theorem sum_bounds (l : List K) (m M : K) (h : ∀ x ∈ l, m ≤ x ∧ x ≤ M) :
    (l.length : K) * m ≤ l.sum ∧ l.sum ≤ (l.length : K) * M := by
  induction l with
  | nil => simp
  | cons x l ih =>
      obtain ⟨h1, h2⟩ := ih (fun y hy => h y (List.mem_cons_of_mem _ hy))
      obtain ⟨h3, h4⟩ := h x List.mem_cons_self
      simp only [List.length_cons, List.sum_cons]
      push_cast
      constructor <;> nlinarith

theorem sum_pos_of (l : List K) (h0 : l ≠ []) (h : ∀ x ∈ l, 0 < x) : 0 < l.sum := by
  induction l with
  | nil => exact absurd rfl h0
  | cons x l ih =>
      rw [List.sum_cons]
      have hx := h x List.mem_cons_self
      cases l with
      | nil => simpa using hx
      | cons y l =>
          have := ih (by simp) (fun z hz => h z (List.mem_cons_of_mem _ hz))
          linarith

/-- what the steps computed from nodes are -/
theorem stepsOfNodes_cases (nodes : List K) :
    stepsOfNodes nodes = diffs nodes ∨
      (∃ avg, avg * ((diffs nodes).length : K) = (diffs nodes).sum ∧
        stepsOfNodes nodes = (diffs nodes).map (fun _ => avg) ∧
        (0 < avg → ∀ h ∈ diffs nodes, |avg - h| < avg / 10 ^ 9)) := by
  unfold stepsOfNodes
  cases hd : diffs nodes with
  | nil => exact Or.inl rfl
  | cons x t =>
      dsimp only
      have hl : ((x :: t).length : K) ≠ 0 := by
        exact_mod_cast (Nat.succ_ne_zero t.length : (x :: t).length ≠ 0)
      have hl0 : (0 : K) < ((x :: t).length : K) := by
        exact_mod_cast (Nat.succ_pos t.length : 0 < (x :: t).length)
      have ha : (x :: t).sum / ((x :: t).length : K) * ((x :: t).length : K) = (x :: t).sum := by
        field_simp
      generalize (x :: t).sum / ((x :: t).length : K) = avg at ha
      split
      · rename_i hc
        refine Or.inr ⟨avg, ha, rfl, ?_⟩
        intro hp h hm
        simp only [divLt, hp.ne', if_false, decide_eq_true_eq] at hc
        rw [div_lt_iff₀ hp] at hc
        obtain ⟨m1, m2⟩ := maxL_bound x t
        obtain ⟨n1, n2⟩ := minL_bound x t
        have hb : ∀ y ∈ x :: t, minL x t ≤ y ∧ y ≤ maxL x t := by
          intro y hy
          rcases List.mem_cons.mp hy with rfl | hy
          · exact ⟨n1, m1⟩
          · exact ⟨n2 y hy, m2 y hy⟩
        obtain ⟨s1, s2⟩ := sum_bounds _ _ _ hb
        obtain ⟨b1, b2⟩ := hb h hm
        rw [← ha, mul_comm avg] at s1 s2
        have t1 : minL x t ≤ avg := le_of_mul_le_mul_left s1 hl0
        have t2 : avg ≤ maxL x t := le_of_mul_le_mul_left s2 hl0
        have : (1 : K) / 10 ^ 9 * avg = avg / 10 ^ 9 := by ring
        rw [this] at hc
        rw [abs_lt]
        constructor <;> linarith
      · exact Or.inl rfl

omit [IsStrictOrderedRing K] in
theorem stepsOfNodes_length (nodes : List K) : (stepsOfNodes nodes).length = nodes.length - 1 := by
  rw [← diffs_length]
  unfold stepsOfNodes
  cases diffs nodes with
  | nil => rfl
  | cons x t => dsimp only; split <;> simp

theorem stepsOfNodes_sum (nodes : List K) : (stepsOfNodes nodes).sum = (diffs nodes).sum := by
  rcases stepsOfNodes_cases nodes with h | ⟨avg, h1, h2, -⟩
  · rw [h]
  · rw [h2, sum_const, ← h1]; ring

omit [LinearOrder K] [IsStrictOrderedRing K] in
theorem sum_replicate' (n : Nat) (c : K) : (List.replicate n c).sum = (n : K) * c := by
  rw [List.sum_replicate, nsmul_eq_mul]

theorem sum_uniform (N : Nat) (hN : N ≠ 0) (tf : K) :
    (List.replicate N (tf / (N : K))).sum = tf := by
  rw [sum_replicate']
  have : (N : K) ≠ 0 := by exact_mod_cast hN
  field_simp

theorem tfOk_self (steps : List K) : tfOk steps.sum steps = true := by
  simp only [tfOk, divGt, sub_self, zero_div]
  have : (0 : K) ≤ 1 / 10 ^ 13 := by positivity
  split <;> simp [this]

theorem tfOk_iff (tf : K) (steps : List K) (hs : 0 < steps.sum) :
    tfOk tf steps = true ↔ steps.sum - tf ≤ steps.sum / 10 ^ 13 := by
  simp only [tfOk, divGt, hs.ne', if_false, Bool.not_eq_true', decide_eq_false_iff_not, not_lt]
  rw [div_le_iff₀ hs]
  rw [show (1 : K) / 10 ^ 13 * steps.sum = steps.sum / 10 ^ 13 by ring]

/-- the steps and nodes of an accepted description with `N > 0`, by the three cases -/
theorem consistent_cases (o r : Opts K) (h : consistent o = some r) (hN : o.N ≠ 0) :
    r.N = o.N ∧ r.tf = o.tf ∧
    (∃ sc, r.scaling = some sc ∧ sc.length = o.N + 1 ∧
      (o.scaling = none → sc = r.steps ++ [1]) ∧ (∀ s, o.scaling = some s → sc = s)) ∧
    tfOk o.tf r.steps = true ∧
    ((o.steps = [] ∧ o.nodes = [] ∧ r.steps = List.replicate o.N (o.tf / (o.N : K)) ∧
        r.nodes = 0 :: cumsum 0 r.steps) ∨
     (o.steps ≠ [] ∧ r.steps = o.steps ∧ r.nodes = 0 :: cumsum 0 r.steps) ∨
     (o.steps = [] ∧ o.nodes ≠ [] ∧ o.nodes.length = o.N + 1 ∧ r.steps = stepsOfNodes o.nodes ∧
        r.nodes = o.nodes)) := by
  unfold consistent at h
  rw [Option.bind_eq_some_iff] at h
  obtain ⟨⟨ts, ns⟩, hd, h⟩ := h
  dsimp only at h
  split at h
  · exact absurd h (by simp)
  · rename_i hsc
    simp only [Option.some.injEq] at h
    subst h
    refine ⟨rfl, rfl, ⟨_, rfl, not_not.mp hsc, ?_, ?_⟩, ?_⟩
    · intro hs; rw [hs]; rfl
    · intro s hs; rw [hs]; rfl
    · dsimp only
      unfold discretize at hd
      rw [if_neg hN] at hd
      split at hd
      · rename_i he
        dsimp only at hd
        split at hd
        · rename_i ht
          simp only [Option.some.injEq, Prod.mk.injEq] at hd
          obtain ⟨rfl, rfl⟩ := hd
          exact ⟨ht, Or.inl ⟨he.1, he.2, rfl, rfl⟩⟩
        · exact absurd hd (by simp)
      · rename_i he
        split at hd
        · rename_i hs
          split at hd
          · rename_i ht
            simp only [Option.some.injEq, Prod.mk.injEq] at hd
            obtain ⟨rfl, rfl⟩ := hd
            exact ⟨ht, Or.inr (Or.inl ⟨hs, rfl, rfl⟩)⟩
          · exact absurd hd (by simp)
        · rename_i hs
          have hs' : o.steps = [] := not_not.mp hs
          split at hd
          · exact absurd hd (by simp)
          · rename_i hl
            dsimp only at hd
            split at hd
            · rename_i ht
              simp only [Option.some.injEq, Prod.mk.injEq] at hd
              obtain ⟨rfl, rfl⟩ := hd
              exact ⟨ht, Or.inr (Or.inr ⟨hs', fun hn => he ⟨hs', hn⟩, not_not.mp hl, rfl, rfl⟩)⟩
            · exact absurd hd (by simp)

/-- acceptance, `N > 0`, time steps given -/
theorem consistent_steps (o : Opts K) (hN : o.N ≠ 0) (hs : o.steps ≠ []) (ht : tfOk o.tf o.steps = true)
    (sc : List K) (hsc : sc = o.scaling.getD (o.steps ++ [1]))
    (hl : sc.length = o.N + 1) :
    consistent o = some { o with nodes := 0 :: cumsum 0 o.steps, scaling := some sc } := by
  have hd : discretize o = some (o.steps, 0 :: cumsum 0 o.steps) := by
    unfold discretize
    rw [if_neg hN, if_neg (fun h => hs h.1), if_pos hs, if_pos ht]
  unfold consistent
  rw [hd, Option.bind_some]
  dsimp only
  rw [← hsc, if_neg (not_not.mpr hl)]

end

end Acados.TimeGrid
