import Verif.Model.Evaluator
import Mathlib.Algebra.BigOperators.Group.Finset.Basic
import Mathlib.Algebra.BigOperators.Intervals
import Mathlib.Algebra.Order.Ring.Rat
import Mathlib.Tactic.Ring
import Mathlib.Tactic.Linarith
import Mathlib.Tactic.Positivity
import Mathlib.Tactic.NormNum
/-! Lemmas for C92. -/
namespace Acados.Evaluator
variable {K X U P : Type} [Field K] [LinearOrder K] [IsStrictOrderedRing K]

/-- the softened constraints of a kind -/
def Group.pick (g : Group P K) : List (Con P K) := g.idxs.filterMap (g.cons[·]?)

/-- the softened constraints of a stage, in the order of their slacks -/
def Stage.softCons (s : Stage P K) : List (Con P K) := s.bu.pick ++ s.bx.pick ++ s.g.pick ++ s.h.pick

/-- with their values at a point and their weights -/
def softs : List (Con P K) → List K → List K → List K → List K → P → List (Soft K)
  | c :: cs, a :: as, b :: bs, d :: ds, e :: es, p => ⟨c.fn p, c.lb, c.ub, a, b, d, e⟩ :: softs cs as bs ds es p
  | _, _, _, _, _, _ => []

def Stage.soft (s : Stage P K) (p : P) : List (Soft K) := softs s.softCons s.zl s.Zl s.zu s.Zu p

/-- consistent data: indices in range, one weight of each kind for each slack -/
structure Stage.WF (s : Stage P K) : Prop where
  bu : ∀ i ∈ s.bu.idxs, i < s.bu.cons.length
  bx : ∀ i ∈ s.bx.idxs, i < s.bx.cons.length
  g : ∀ i ∈ s.g.idxs, i < s.g.cons.length
  h : ∀ i ∈ s.h.idxs, i < s.h.cons.length
  zl : s.zl.length = s.slackIdx.length
  Zl : s.Zl.length = s.slackIdx.length
  zu : s.zu.length = s.slackIdx.length
  Zu : s.Zu.length = s.slackIdx.length

theorem pick_length (g : Group P K) (h : ∀ i ∈ g.idxs, i < g.cons.length) : g.pick.length = g.idxs.length := by
  unfold Group.pick
  revert h
  generalize g.idxs = l
  induction l with
  | nil => intro _; rfl
  | cons a l ih =>
    intro h
    rw [List.filterMap_cons, List.getElem?_eq_getElem (h a List.mem_cons_self)]
    simp only [List.length_cons]
    rw [ih (fun i hi => h i (List.mem_cons_of_mem _ hi))]

theorem soft_length (s : Stage P K) (h : s.WF) : s.softCons.length = s.slackIdx.length := by
  unfold Stage.softCons Stage.slackIdx
  simp only [List.length_append, List.length_map, pick_length _ h.bu, pick_length _ h.bx, pick_length _ h.g, pick_length _ h.h]

theorem pick_map (pre cs post : List (Con P K)) (v : Con P K → K) (l : List Nat) (h : ∀ i ∈ l, i < cs.length) :
    (l.map fun i => ((pre ++ cs ++ post).map v).getD (i + pre.length) 0) = (l.filterMap (cs[·]?)).map v := by
  induction l with
  | nil => rfl
  | cons a l ih =>
    have ha := h a List.mem_cons_self
    rw [List.filterMap_cons, List.getElem?_eq_getElem ha]
    simp only [List.map_cons]
    rw [ih (fun i hi => h i (List.mem_cons_of_mem _ hi))]
    congr 1
    rw [List.getD_eq_getElem?_getD, List.getElem?_map, List.append_assoc, List.getElem?_append_right (by omega), Nat.add_sub_cancel,
      List.getElem?_append_left ha, List.getElem?_eq_getElem ha]
    rfl

theorem slack_map (s : Stage P K) (h : s.WF) (v : Con P K → K) :
    (s.slackIdx.map fun i => (s.all.map v).getD i 0) = s.softCons.map v := by
  have h1 := pick_map [] s.bu.cons (s.bx.cons ++ s.g.cons ++ s.h.cons) v s.bu.idxs h.bu
  have h2 := pick_map s.bu.cons s.bx.cons (s.g.cons ++ s.h.cons) v s.bx.idxs h.bx
  have h3 := pick_map (s.bu.cons ++ s.bx.cons) s.g.cons s.h.cons v s.g.idxs h.g
  have h4 := pick_map (s.bu.cons ++ s.bx.cons ++ s.g.cons) s.h.cons [] v s.h.idxs h.h
  have e1 : [] ++ s.bu.cons ++ (s.bx.cons ++ s.g.cons ++ s.h.cons) = s.all := by simp [Stage.all]
  have e2 : s.bu.cons ++ s.bx.cons ++ (s.g.cons ++ s.h.cons) = s.all := by simp [Stage.all]
  have e4 : s.bu.cons ++ s.bx.cons ++ s.g.cons ++ s.h.cons ++ [] = s.all := by simp [Stage.all]
  have e3 : s.bu.cons ++ s.bx.cons ++ s.g.cons ++ s.h.cons = s.all := rfl
  rw [e1] at h1
  rw [e2] at h2
  rw [e3] at h3
  rw [e4] at h4
  unfold Stage.slackIdx Stage.softCons Group.pick
  simp only [List.map_append, List.map_map]
  rw [← h1, ← h2, ← h3, ← h4]
  simp only [List.length_nil, Nat.add_zero, List.length_append, Function.comp_def, Nat.add_assoc]

theorem slackCost_eq (Z z s : List K) :
    slackCost Z z s = 1 / 2 * (List.zipWith (fun a b => a * (b * b)) Z s).sum + (List.zipWith (fun a b => a * b) z s).sum := by
  unfold slackCost
  congr 1
  · split
    · rename_i h; rw [h]; simp
    · rfl
  · split
    · rename_i h; rw [h]; simp
    · rfl

theorem slackCost_softs (cs : List (Con P K)) (p : P) (zl Zl zu Zu : List K) (h1 : zl.length = cs.length) (h2 : Zl.length = cs.length)
    (h3 : zu.length = cs.length) (h4 : Zu.length = cs.length) :
    slackCost Zl zl (cs.map fun c => lowerViol c p) + slackCost Zu zu (cs.map fun c => upperViol c p) = least (softs cs zl Zl zu Zu p) := by
  simp only [slackCost_eq]
  induction cs generalizing zl Zl zu Zu with
  | nil =>
    have e1 : zl = [] := List.length_eq_zero_iff.1 h1
    have e2 : Zl = [] := List.length_eq_zero_iff.1 h2
    have e3 : zu = [] := List.length_eq_zero_iff.1 h3
    have e4 : Zu = [] := List.length_eq_zero_iff.1 h4
    subst e1 e2 e3 e4
    simp [softs, least]
  | cons c cs ih =>
    obtain ⟨a, as, rfl⟩ := List.exists_cons_of_length_eq_add_one h1
    obtain ⟨b, bs, rfl⟩ := List.exists_cons_of_length_eq_add_one h2
    obtain ⟨d, ds, rfl⟩ := List.exists_cons_of_length_eq_add_one h3
    obtain ⟨e, es, rfl⟩ := List.exists_cons_of_length_eq_add_one h4
    have := ih as bs ds es (by simpa using h1) (by simpa using h2) (by simpa using h3) (by simpa using h4)
    unfold least at *
    simp only [softs, List.map_cons, List.zipWith_cons_cons, List.sum_cons]
    rw [← this]
    unfold penalty lowerViol upperViol
    ring

theorem penalty_mono (s : Soft K) (h1 : 0 ≤ s.zl) (h2 : 0 ≤ s.Zl) (h3 : 0 ≤ s.zu) (h4 : 0 ≤ s.Zu) (t : K × K) (ht : Admissible s t) :
    penalty s (max (s.lb - s.val) 0) (max (s.val - s.ub) 0) ≤ penalty s t.1 t.2 := by
  obtain ⟨t1, t2, t3, t4⟩ := ht
  have a1 : max (s.lb - s.val) 0 ≤ t.1 := max_le (by linarith) t1
  have a2 : max (s.val - s.ub) 0 ≤ t.2 := max_le (by linarith) t2
  have b1 : 0 ≤ max (s.lb - s.val) 0 := le_max_right _ _
  have b2 : 0 ≤ max (s.val - s.ub) 0 := le_max_right _ _
  have c1 := pow_le_pow_left₀ b1 a1 2
  have c2 := pow_le_pow_left₀ b2 a2 2
  unfold penalty
  have d1 := mul_le_mul_of_nonneg_left a1 h1
  have d2 := mul_le_mul_of_nonneg_left a2 h3
  have d3 := mul_le_mul_of_nonneg_left c1 (show 0 ≤ s.Zl / 2 by positivity)
  have d4 := mul_le_mul_of_nonneg_left c2 (show 0 ≤ s.Zu / 2 by positivity)
  linarith

theorem least_isLeast (l : List (Soft K)) (h : ∀ s ∈ l, 0 ≤ s.zl ∧ 0 ≤ s.Zl ∧ 0 ≤ s.zu ∧ 0 ≤ s.Zu) : IsLeast (Penalties l) (least l) := by
  constructor
  · refine ⟨l.map fun s => (max (s.lb - s.val) 0, max (s.val - s.ub) 0), ?_, ?_⟩
    · clear h
      induction l with
      | nil => exact List.Forall₂.nil
      | cons s l ih =>
        refine List.Forall₂.cons ⟨le_max_right _ _, le_max_right _ _, ?_, ?_⟩ ih
        · have := le_max_left (s.lb - s.val) 0; dsimp only; linarith
        · have := le_max_left (s.val - s.ub) 0; dsimp only; linarith
    · clear h
      unfold least
      induction l with
      | nil => rfl
      | cons s l ih => simp only [List.map_cons, List.sum_cons, List.zipWith_cons_cons, ih]
  · rintro c ⟨ts, hts, rfl⟩
    unfold least
    induction hts with
    | nil => exact le_rfl
    | @cons s t l ts hs _ ih =>
      simp only [List.map_cons, List.sum_cons, List.zipWith_cons_cons]
      obtain ⟨h1, h2, h3, h4⟩ := h s List.mem_cons_self
      exact add_le_add (penalty_mono s h1 h2 h3 h4 t hs) (ih fun q hq => h q (List.mem_cons_of_mem _ hq))

theorem softs_weights (cs : List (Con P K)) (p : P) (zl Zl zu Zu : List K) (h1 : ∀ a ∈ zl, 0 ≤ a) (h2 : ∀ a ∈ Zl, 0 ≤ a)
    (h3 : ∀ a ∈ zu, 0 ≤ a) (h4 : ∀ a ∈ Zu, 0 ≤ a) : ∀ s ∈ softs cs zl Zl zu Zu p, 0 ≤ s.zl ∧ 0 ≤ s.Zl ∧ 0 ≤ s.zu ∧ 0 ≤ s.Zu := by
  induction cs generalizing zl Zl zu Zu with
  | nil => intro s hs; cases zl <;> cases Zl <;> cases zu <;> cases Zu <;> simp [softs] at hs
  | cons c cs ih =>
    intro s hs
    match zl, Zl, zu, Zu, hs with
    | a :: as, b :: bs, d :: ds, e :: es, hs =>
      unfold softs at hs
      rcases List.mem_cons.1 hs with rfl | hs
      · exact ⟨h1 a List.mem_cons_self, h2 b List.mem_cons_self, h3 d List.mem_cons_self, h4 e List.mem_cons_self⟩
      · exact ih as bs ds es (fun q hq => h1 q (List.mem_cons_of_mem _ hq)) (fun q hq => h2 q (List.mem_cons_of_mem _ hq))
          (fun q hq => h3 q (List.mem_cons_of_mem _ hq)) (fun q hq => h4 q (List.mem_cons_of_mem _ hq)) s hs
    | [], _, _, _, hs => simp [softs] at hs
    | _ :: _, [], _, _, hs => simp [softs] at hs
    | _ :: _, _ :: _, [], _, hs => simp [softs] at hs
    | _ :: _, _ :: _, _ :: _, [], hs => simp [softs] at hs

/-- slack costs of the evaluator -/
theorem stage_slack (s : Stage P K) (h : s.WF) (p : P) :
    slackCost s.Zl s.zl (s.lowerSlack p) + slackCost s.Zu s.zu (s.upperSlack p) = least (s.soft p) := by
  unfold Stage.lowerSlack Stage.upperSlack Stage.soft
  rw [slack_map s h (fun c => lowerViol c p), slack_map s h (fun c => upperViol c p)]
  have e := soft_length s h
  exact slackCost_softs _ p _ _ _ _ (h.zl.trans e.symm) (h.Zl.trans e.symm) (h.zu.trans e.symm) (h.Zu.trans e.symm)

/-! hard constraints -/

theorem viol_zero (c : Con P K) (p : P) : lowerViol c p = 0 ∧ upperViol c p = 0 ↔ c.lb ≤ c.fn p ∧ c.fn p ≤ c.ub := by
  unfold lowerViol upperViol
  rw [max_eq_right_iff, max_eq_right_iff, sub_nonpos, sub_nonpos]

theorem hard_all (s : Stage P K) (p : P) :
    (∀ v ∈ s.hardViol p, v = 0) ↔ ∀ (i : Nat) (c : Con P K), s.all[i]? = some c → i ∉ s.slackIdx → c.lb ≤ c.fn p ∧ c.fn p ≤ c.ub := by
  unfold Stage.hardViol
  constructor
  · intro h i c hc hi
    have hlt : i < s.all.length := by
      by_contra hn
      rw [List.getElem?_eq_none (by omega)] at hc
      cases hc
    have hm : i ∈ s.hardIdx := by
      unfold Stage.hardIdx
      rw [List.mem_filter]
      exact ⟨List.mem_range.2 hlt, by simpa using hi⟩
    have h1 := h _ (List.mem_append_left _ (List.mem_map.2 ⟨i, hm, rfl⟩))
    have h2 := h _ (List.mem_append_right _ (List.mem_map.2 ⟨i, hm, rfl⟩))
    rw [List.getD_eq_getElem?_getD, List.getElem?_map, hc] at h1 h2
    exact (viol_zero c p).1 ⟨h1, h2⟩
  · intro h v hv
    have key : ∀ i ∈ s.hardIdx, ∃ c, s.all[i]? = some c ∧ lowerViol c p = 0 ∧ upperViol c p = 0 := by
      intro i hi
      unfold Stage.hardIdx at hi
      rw [List.mem_filter, List.mem_range] at hi
      refine ⟨s.all[i], List.getElem?_eq_getElem hi.1, ?_⟩
      exact (viol_zero _ p).2 (h i _ (List.getElem?_eq_getElem hi.1) (by simpa using hi.2))
    rcases List.mem_append.1 hv with hv | hv
    · obtain ⟨i, hi, rfl⟩ := List.mem_map.1 hv
      obtain ⟨c, hc, h1, _⟩ := key i hi
      rw [List.getD_eq_getElem?_getD, List.getElem?_map, hc]
      exact h1
    · obtain ⟨i, hi, rfl⟩ := List.mem_map.1 hv
      obtain ⟨c, hc, _, h1⟩ := key i hi
      rw [List.getD_eq_getElem?_getD, List.getElem?_map, hc]
      exact h1

/-- index of a constraint in the list of all constraints -/
theorem hard_split (s : Stage P K) (h : s.WF) (Q : Con P K → Prop) :
    (∀ (i : Nat) (c : Con P K), s.all[i]? = some c → i ∉ s.slackIdx → Q c)
    ↔ ∀ g : Group P K, g = s.bu ∨ g = s.bx ∨ g = s.g ∨ g = s.h → ∀ (i : Nat) (c : Con P K), g.cons[i]? = some c → i ∉ g.idxs → Q c := by
  have hmem : ∀ i, i ∈ s.slackIdx ↔ i ∈ s.bu.idxs ∨ (∃ j ∈ s.bx.idxs, j + s.bu.cons.length = i)
      ∨ (∃ j ∈ s.g.idxs, j + s.bu.cons.length + s.bx.cons.length = i)
      ∨ ∃ j ∈ s.h.idxs, j + s.bu.cons.length + s.bx.cons.length + s.g.cons.length = i := by
    intro i
    unfold Stage.slackIdx
    simp only [List.mem_append, List.mem_map, or_assoc]
  have hlt : ∀ (l : List (Con P K)) (i : Nat) (c : Con P K), l[i]? = some c → i < l.length := by
    intro l i c hc
    by_contra hn
    rw [List.getElem?_eq_none (by omega)] at hc
    cases hc
  constructor
  · intro hq g hg i c hc hi
    have hl := hlt _ _ _ hc
    rcases hg with rfl | rfl | rfl | rfl
    · refine hq i c ?_ ?_
      · unfold Stage.all
        rw [List.append_assoc, List.append_assoc, List.getElem?_append_left hl]
        exact hc
      · rw [hmem]
        rintro (h1 | ⟨j, _, h1⟩ | ⟨j, _, h1⟩ | ⟨j, _, h1⟩)
        · exact hi h1
        · omega
        · omega
        · omega
    · refine hq (i + s.bu.cons.length) c ?_ ?_
      · unfold Stage.all
        rw [List.append_assoc, List.append_assoc, List.getElem?_append_right (by omega), Nat.add_sub_cancel, List.getElem?_append_left hl]
        exact hc
      · rw [hmem]
        rintro (h1 | ⟨j, hj, h1⟩ | ⟨j, _, h1⟩ | ⟨j, _, h1⟩)
        · have := h.bu _ h1; omega
        · rw [show j = i by omega] at hj; exact hi hj
        · omega
        · omega
    · refine hq (i + s.bu.cons.length + s.bx.cons.length) c ?_ ?_
      · unfold Stage.all
        rw [List.append_assoc, List.getElem?_append_right (by rw [List.length_append]; omega), List.length_append,
          show i + s.bu.cons.length + s.bx.cons.length - (s.bu.cons.length + s.bx.cons.length) = i by omega, List.getElem?_append_left hl]
        exact hc
      · rw [hmem]
        rintro (h1 | ⟨j, hj, h1⟩ | ⟨j, hj, h1⟩ | ⟨j, _, h1⟩)
        · have := h.bu _ h1; omega
        · have := h.bx _ hj; omega
        · rw [show j = i by omega] at hj; exact hi hj
        · omega
    · refine hq (i + s.bu.cons.length + s.bx.cons.length + s.g.cons.length) c ?_ ?_
      · unfold Stage.all
        rw [List.getElem?_append_right (by rw [List.length_append, List.length_append]; omega), List.length_append, List.length_append,
          show i + s.bu.cons.length + s.bx.cons.length + s.g.cons.length - (s.bu.cons.length + s.bx.cons.length + s.g.cons.length) = i by omega]
        exact hc
      · rw [hmem]
        rintro (h1 | ⟨j, hj, h1⟩ | ⟨j, hj, h1⟩ | ⟨j, hj, h1⟩)
        · have := h.bu _ h1; omega
        · have := h.bx _ hj; omega
        · have := h.g _ hj; omega
        · rw [show j = i by omega] at hj; exact hi hj
  · intro hq i c hc hi
    rw [hmem] at hi
    unfold Stage.all at hc
    by_cases h1 : i < s.bu.cons.length
    · rw [List.append_assoc, List.append_assoc, List.getElem?_append_left h1] at hc
      exact hq s.bu (Or.inl rfl) i c hc (fun hh => hi (Or.inl hh))
    · rw [List.append_assoc, List.append_assoc, List.getElem?_append_right (by omega)] at hc
      by_cases h2 : i - s.bu.cons.length < s.bx.cons.length
      · rw [List.getElem?_append_left h2] at hc
        exact hq s.bx (Or.inr (Or.inl rfl)) _ c hc (fun hh => hi (Or.inr (Or.inl ⟨_, hh, by omega⟩)))
      · rw [List.getElem?_append_right (by omega)] at hc
        by_cases h3 : i - s.bu.cons.length - s.bx.cons.length < s.g.cons.length
        · rw [List.getElem?_append_left h3] at hc
          exact hq s.g (Or.inr (Or.inr (Or.inl rfl))) _ c hc (fun hh => hi (Or.inr (Or.inr (Or.inl ⟨_, hh, by omega⟩))))
        · rw [List.getElem?_append_right (by omega)] at hc
          exact hq s.h (Or.inr (Or.inr (Or.inr rfl))) _ c hc (fun hh => hi (Or.inr (Or.inr (Or.inr ⟨_, hh, by omega⟩))))

/-! the cost state -/

/-- sum of the terms of a list of constraints -/
def T (s : Stage P K) (p : P) : List (Con P K) → Nat → K
  | [], _ => 0
  | c :: cs, i => ((s.zl.getD i 0 * lowerViol c p + s.Zl.getD i 0 * lowerViol c p ^ 2)
        + (s.zu.getD i 0 * upperViol c p + s.Zu.getD i 0 * upperViol c p ^ 2)) + T s p cs (i + 1)

theorem T_append (s : Stage P K) (p : P) (a b : List (Con P K)) (i : Nat) : T s p (a ++ b) i = T s p a i + T s p b (i + a.length) := by
  induction a generalizing i with
  | nil => simp [T]
  | cons c a ih =>
    rw [List.cons_append, T, T, ih, List.length_cons, show i + 1 + a.length = i + (a.length + 1) by omega]
    ring

theorem aux_T (s : Stage P K) (p : P) (cons : List (Con P K)) (idxs : List Nat) (i0 : Nat) (h : ∀ i ∈ idxs, i < cons.length) :
    costDotAux s p ⟨cons, idxs⟩ i0 = T s p (Group.pick ⟨cons, idxs⟩) i0 := by
  induction idxs generalizing i0 with
  | nil => rfl
  | cons a l ih =>
    have := ih (i0 + 1) (fun i hi => h i (List.mem_cons_of_mem _ hi))
    unfold costDotAux Group.pick at *
    dsimp only at *
    rw [List.filterMap_cons, List.length_cons, List.range_succ_eq_map, List.map_cons, List.sum_cons, List.map_map]
    rw [List.getD_cons_zero, List.getElem?_eq_getElem (h a List.mem_cons_self)]
    dsimp only
    rw [T, ← this, Nat.add_zero]
    congr 1
    congr 1
    refine List.map_congr_left fun j _ => ?_
    dsimp only [Function.comp]
    rw [List.getD_cons_succ, show i0 + (j + 1) = i0 + 1 + j by omega]

theorem aux_T' (s : Stage P K) (p : P) (g : Group P K) (i0 : Nat) (h : ∀ i ∈ g.idxs, i < g.cons.length) :
    costDotAux s p g i0 = T s p g.pick i0 := aux_T s p g.cons g.idxs i0 h

theorem T_softs (s : Stage P K) (p : P) (cs : List (Con P K)) (i : Nat) (h1 : s.zl.length = cs.length + i) (h2 : s.Zl.length = cs.length + i)
    (h3 : s.zu.length = cs.length + i) (h4 : s.Zu.length = cs.length + i) :
    T s p cs i = least (softs cs (s.zl.drop i) ((s.Zl.drop i).map (2 * ·)) (s.zu.drop i) ((s.Zu.drop i).map (2 * ·)) p) := by
  induction cs generalizing i with
  | nil => simp [T, softs, least]
  | cons c cs ih =>
    rw [T, ih (i + 1) (by rw [h1, List.length_cons]; omega) (by rw [h2, List.length_cons]; omega) (by rw [h3, List.length_cons]; omega)
      (by rw [h4, List.length_cons]; omega)]
    rw [List.length_cons] at h1 h2 h3 h4
    rw [List.drop_eq_getElem_cons (show i < s.zl.length by omega), List.drop_eq_getElem_cons (show i < s.Zl.length by omega),
      List.drop_eq_getElem_cons (show i < s.zu.length by omega), List.drop_eq_getElem_cons (show i < s.Zu.length by omega)]
    unfold least
    simp only [softs, List.map_cons, List.sum_cons]
    congr 1
    simp only [List.getD_eq_getElem?_getD, List.getElem?_eq_getElem (show i < s.zl.length by omega), List.getElem?_eq_getElem (show i < s.Zl.length by omega),
      List.getElem?_eq_getElem (show i < s.zu.length by omega), List.getElem?_eq_getElem (show i < s.Zu.length by omega), Option.getD_some]
    unfold penalty lowerViol upperViol
    ring

theorem costDot_eq (cost : P → K) (s : Stage P K) (h : s.WF) (p : P) :
    costDot cost s p = cost p + least (softs s.softCons s.zl (s.Zl.map (2 * ·)) s.zu (s.Zu.map (2 * ·)) p) := by
  have e := soft_length s h
  have ht := T_softs s p s.softCons 0 (by rw [e]; exact h.zl) (by rw [e]; exact h.Zl) (by rw [e]; exact h.zu) (by rw [e]; exact h.Zu)
  rw [List.drop_zero, List.drop_zero, List.drop_zero, List.drop_zero] at ht
  rw [← ht]
  unfold costDot Stage.softCons
  rw [aux_T' s p s.bu _ h.bu, aux_T' s p s.bx _ h.bx, aux_T' s p s.g _ h.g, aux_T' s p s.h _ h.h]
  simp only [T_append, List.length_append, pick_length _ h.bu, pick_length _ h.bx, pick_length _ h.g, Nat.zero_add]
  ring

end Acados.Evaluator
