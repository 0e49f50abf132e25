import Verif.Lemmas.DenseQp2
/-! Lemmas for the dense QP model: multipliers of qpOASES -/
namespace Acados.DenseQp
open Finset
section
variable {K : Type*} [Field K] [LinearOrder K] [IsStrictOrderedRing K]

omit [Field K] [LinearOrder K] [IsStrictOrderedRing K] in
theorem scatter_in (n : Nat) (idx : Nat → Nat) (src : Nat → K) (init : K)
    (hinj : ∀ i, i < n → ∀ j, j < n → idx i = idx j → i = j) :
    (∀ i, i < n → scatter n idx src init (idx i) = src i) ∧
      ∀ k, (∀ i, i < n → idx i ≠ k) → scatter n idx src init k = init := by
  unfold scatter
  induction n with
  | zero => exact ⟨fun i hi => by omega, fun k _ => rfl⟩
  | succ n ih =>
    obtain ⟨a, b⟩ := ih fun i hi j hj => hinj i (by omega) j (by omega)
    rw [List.range_succ, List.foldl_append, List.foldl_cons, List.foldl_nil]
    refine ⟨fun i hi => ?_, fun k hk => ?_⟩
    · rcases Nat.lt_succ_iff_lt_or_eq.mp hi with h | h
      · rw [Function.update_of_ne, a i h]
        intro he; have := hinj i (by omega) n (by omega) he; omega
      · subst h; exact Function.update_self ..
    · rw [Function.update_of_ne (fun h => hk n (by omega) h.symm)]
      exact b k fun i hi => hk i (by omega)

omit [IsStrictOrderedRing K] in
/-- the loops `split` over bounds or general constraints -/
theorem split_loop [AddLeftMono K] (n lo up : Nat) (hd : lo + n ≤ up) (f : Nat → K) (l : Nat → K)
    (h0 : ∀ i, i < n → l (lo + i) = 0 ∧ l (up + i) = 0) :
    (∀ i, i < n →
      (List.range n).foldl (fun l i => split l (lo + i) (up + i) (f i)) l (lo + i) = max (f i) 0 ∧
      (List.range n).foldl (fun l i => split l (lo + i) (up + i) (f i)) l (up + i) = max (-f i) 0) ∧
    ∀ k, (∀ i, i < n → k ≠ lo + i ∧ k ≠ up + i) →
      (List.range n).foldl (fun l i => split l (lo + i) (up + i) (f i)) l k = l k := by
  have key : ∀ m, m ≤ n → (∀ i, i < n →
      (List.range m).foldl (fun l i => split l (lo + i) (up + i) (f i)) l (lo + i)
        = (if i < m then max (f i) 0 else 0) ∧
      (List.range m).foldl (fun l i => split l (lo + i) (up + i) (f i)) l (up + i)
        = if i < m then max (-f i) 0 else 0) ∧
    ∀ k, (∀ i, i < n → k ≠ lo + i ∧ k ≠ up + i) →
      (List.range m).foldl (fun l i => split l (lo + i) (up + i) (f i)) l k = l k := by
    intro m
    induction m with
    | zero =>
      intro _
      refine ⟨fun i hi => ?_, fun k _ => rfl⟩
      rw [if_neg (by omega), if_neg (by omega)]; exact h0 i hi
    | succ m ih =>
      intro hm
      obtain ⟨a, b⟩ := ih (by omega)
      rw [List.range_succ, List.foldl_append, List.foldl_cons, List.foldl_nil]
      generalize (List.range m).foldl (fun l i => split l (lo + i) (up + i) (f i)) l = l1 at a b
      unfold split
      refine ⟨fun i hi => ?_, fun k hk => ?_⟩
      · obtain ⟨a1, a2⟩ := a i hi
        by_cases he : i = m
        · subst he
          rw [if_neg (by omega)] at a1 a2
          simp only [if_pos (Nat.lt_succ_self i)]
          split
          · rename_i h
            rw [Function.update_self, Function.update_of_ne (by omega), a2, max_eq_left h,
              max_eq_right (neg_nonpos.mpr h)]
            exact ⟨rfl, rfl⟩
          · rename_i h
            have h' := (not_le.mp h).le
            rw [Function.update_self, Function.update_of_ne (by omega), a1, max_eq_right h',
              max_eq_left (neg_nonneg.mpr h')]
            exact ⟨rfl, rfl⟩
        · have e : (i < m + 1) = (i < m) := by
            apply propext; omega
          simp only [e]
          split <;> rw [Function.update_of_ne (by omega), Function.update_of_ne (by omega)] <;> exact ⟨a1, a2⟩
      · have := hk m (by omega)
        split
        · rw [Function.update_of_ne this.1]; exact b k hk
        · rw [Function.update_of_ne this.2]; exact b k hk
  obtain ⟨a, b⟩ := key n le_rfl
  refine ⟨fun i hi => ?_, b⟩
  have := a i hi
  rwa [if_pos hi, if_pos hi] at this

/-- multiplier of constraint `i` in `dual_sol`: positive for the lower, negative for the upper side -/
def dualOf (q : DQp K) (y : Nat → K) (i : Nat) : K :=
  if i < q.nb then (if SS q i then y (q.nv + 2 * q.ns + (q.ng + Nat.count (SS q) i)) else y (q.idxb i))
  else y (q.nv + 2 * q.ns + (i - q.nb))

/-- soft bounds appear in the order of their slacks -/
def Sorted (q : DQp K) : Prop :=
  ∀ i, i < q.nb → ∀ j, j < q.nb → SS q i → SS q j → i < j → slackOf q i < slackOf q j

omit [IsStrictOrderedRing K] in
/-- the counter of soft bounds met while going through the slacks -/
theorem count_slack {q : DQp K} (hq : WF q) (hs : Sorted q) (j : Nat) (hj : j < q.nb) (h : SS q j) :
    Nat.count (fun s => idxsOf q s < q.nb) (slackOf q j) = Nat.count (SS q) j := by
  rw [Nat.count_eq_card_filter_range, Nat.count_eq_card_filter_range]
  symm
  have mono : ∀ i, i < q.nb → SS q i → (slackOf q i < slackOf q j ↔ i < j) := by
    intro i hi h1
    constructor
    · intro hl
      by_contra hn
      rcases Nat.lt_or_ge j i with h2 | h2
      · have := hs j hj i hi h h1 h2; omega
      · have : i = j := by omega
        subst this; omega
    · exact fun hl => hs i hi j hj h1 h hl
  refine card_bij (fun i _ => slackOf q i) ?_ ?_ ?_
  · intro i hi
    rw [mem_filter, mem_range] at hi ⊢
    refine ⟨(mono i (by omega) hi.2).mpr hi.1, ?_⟩
    rw [idxsOf_eq hq i (by omega) hi.2]; omega
  · intro i hi i' hi' he
    rw [mem_filter, mem_range] at hi hi'
    exact hq.slack_inj i i' (by omega) (by omega) hi.2 hi'.2 he
  · intro s hs'
    rw [mem_filter, mem_range] at hs'
    have hlt := hq.slack_lt j (by omega) h
    obtain ⟨i, h1, h2, h3⟩ := hq.used' s (by omega)
    subst h3
    rw [idxsOf_eq hq i h1 h2] at hs'
    exact ⟨i, by rw [mem_filter, mem_range]; exact ⟨(mono i hs'.2 h2).mp hs'.1, h2⟩, rfl⟩

/-- state of the multipliers in the loop over the slacks -/
structure LInv (q : DQp K) (y l2 : Nat → K) (n : Nat) (s : (Nat → K) × Nat) : Prop where
  k : s.2 = Nat.count (fun s => idxsOf q s < q.nb) n
  done : ∀ i, i < q.nb → SS q i → slackOf q i < n →
    s.1 i = max (dualOf q y i) 0 ∧ s.1 (q.nb + q.ng + i) = max (-dualOf q y i) 0
  todo : ∀ i, i < q.nb → SS q i → n ≤ slackOf q i → s.1 i = 0 ∧ s.1 (q.nb + q.ng + i) = 0
  rest : ∀ i, i < q.nb + q.ng → ¬ (i < q.nb ∧ SS q i) → s.1 i = l2 i ∧ s.1 (q.nb + q.ng + i) = l2 (q.nb + q.ng + i)
  slk : ∀ i, i < q.nb + q.ng → SS q i → slackOf q i < n →
    s.1 (2 * (q.nb + q.ng) + slackOf q i) = y (q.nv + slackOf q i) - max (-dualOf q y i) 0 ∧
    s.1 (2 * (q.nb + q.ng) + q.ns + slackOf q i) = y (q.nv + q.ns + slackOf q i) - max (dualOf q y i) 0

theorem slack_loop {q : DQp K} (hq : WF q) (hs : Sorted q) (y l2 : Nat → K)
    (h2s : ∀ i, i < q.nb → SS q i → l2 i = 0 ∧ l2 (q.nb + q.ng + i) = 0)
    (h2g : ∀ i, i < q.nb + q.ng → ¬ (i < q.nb ∧ SS q i) →
      l2 i = max (dualOf q y i) 0 ∧ l2 (q.nb + q.ng + i) = max (-dualOf q y i) 0)
    (hy : ∀ t, t < 2 * q.ns → 0 ≤ y (q.nv + t)) (n : Nat) (hn : n ≤ q.ns) :
    LInv q y l2 n ((List.range n).foldl (slackStep q (idxsOf q) y) (l2, 0)) := by
  induction n with
  | zero =>
    exact ⟨by simp, fun i _ _ h => by omega, fun i hi h _ => h2s i hi h, fun i _ _ => ⟨rfl, rfl⟩,
      fun i _ _ h => by omega⟩
  | succ n ih =>
    have I := ih (by omega)
    rw [List.range_succ, List.foldl_append, List.foldl_cons, List.foldl_nil]
    generalize (List.range n).foldl (slackStep q (idxsOf q) y) (l2, 0) = s at I
    obtain ⟨js, hj, hsj, hjn⟩ := hq.used' n (by omega)
    have hid : idxsOf q n = js := by rw [← hjn]; exact idxsOf_eq hq js hj hsj
    have y1 := hy n (by omega)
    have y2 := hy (q.ns + n) (by omega)
    rw [← Nat.add_assoc] at y2
    have uniq : ∀ i, i < q.nb + q.ng → SS q i → slackOf q i < n + 1 → slackOf q i < n ∨ i = js := by
      intro i hi h hl
      rcases Nat.lt_succ_iff_lt_or_eq.mp hl with h' | h'
      · exact Or.inl h'
      · exact Or.inr (hq.slack_inj i js hi hj h hsj (h'.trans hjn.symm))
    unfold slackStep
    simp only [hid]
    rw [if_pos y1, if_pos y2]
    by_cases hb : js < q.nb
    · have hk : s.2 = Nat.count (SS q) js := by rw [I.k, ← hjn]; exact count_slack hq hs js hb hsj
      have hd : y (q.nv + 2 * q.ns + q.ng + s.2) = dualOf q y js := by
        unfold dualOf; rw [if_pos hb, if_pos hsj, hk, Nat.add_assoc]
      have t0 := I.todo js hb hsj (by omega)
      simp only [if_pos hb, hd]
      -- the two signs
      have main : ∀ (l : Nat → K) (ol ou : K), ol = max (dualOf q y js) 0 → ou = max (-dualOf q y js) 0 →
          (l js = max (dualOf q y js) 0) → (l (q.nb + q.ng + js) = max (-dualOf q y js) 0) →
          (∀ k, k ≠ js → k ≠ q.nb + q.ng + js → l k = s.1 k) →
          LInv q y l2 (n + 1) (Function.update (Function.update l (2 * (q.nb + q.ng) + n) (y (q.nv + n) - ou))
            (2 * (q.nb + q.ng) + q.ns + n) (y (q.nv + q.ns + n) - ol), s.2 + 1) := by
        intro l ol ou e1 e2 e3 e4 e5
        have fr : ∀ k, k < 2 * (q.nb + q.ng) → (Function.update (Function.update l (2 * (q.nb + q.ng) + n)
            (y (q.nv + n) - ou)) (2 * (q.nb + q.ng) + q.ns + n) (y (q.nv + q.ns + n) - ol)) k = l k := by
          intro k hk
          rw [Function.update_of_ne (by omega), Function.update_of_ne (by omega)]
        refine ⟨?_, ?_, ?_, ?_, ?_⟩
        · change s.2 + 1 = _
          rw [Nat.count_succ, I.k, if_pos (by rw [hid]; exact hb)]
        · intro i hi h hl
          simp only
          rw [fr _ (by omega), fr _ (by omega)]
          rcases uniq i (by omega) h hl with h' | h'
          · have : i ≠ js := by rintro rfl; omega
            rw [e5 _ (by omega) (by omega), e5 _ (by omega) (by omega)]
            exact I.done i hi h h'
          · subst h'; exact ⟨e3, e4⟩
        · intro i hi h hl
          simp only
          have : i ≠ js := by rintro rfl; omega
          rw [fr _ (by omega), fr _ (by omega), e5 _ (by omega) (by omega), e5 _ (by omega) (by omega)]
          exact I.todo i hi h (by omega)
        · intro i hi h
          simp only
          have : i ≠ js := by rintro rfl; exact h ⟨hb, hsj⟩
          rw [fr _ (by omega), fr _ (by omega), e5 _ (by omega) (by omega), e5 _ (by omega) (by omega)]
          exact I.rest i hi h
        · intro i hi h hl
          simp only
          rcases uniq i (by omega) h hl with h' | h'
          · have := hq.slack_lt i hi h
            rw [Function.update_of_ne (by omega), Function.update_of_ne (by omega), Function.update_of_ne (by omega),
              Function.update_of_ne (by omega), e5 _ (by omega) (by omega), e5 _ (by omega) (by omega)]
            exact I.slk i hi h h'
          · subst h'
            rw [hjn, Function.update_of_ne (by omega), Function.update_self, Function.update_self, e1, e2]
            exact ⟨rfl, rfl⟩
      by_cases hle : dualOf q y js ≤ 0
      · simp only [if_pos hle]
        refine main _ _ _ (max_eq_right hle).symm (max_eq_left (neg_nonneg.mpr hle)).symm ?_ ?_ ?_
        · rw [Function.update_of_ne (by omega), t0.1, max_eq_right hle]
        · rw [Function.update_self, max_eq_left (neg_nonneg.mpr hle)]
        · intro k _ h2; rw [Function.update_of_ne h2]
      · have hle' := (not_le.mp hle).le
        simp only [if_neg hle]
        refine main _ _ _ (max_eq_left hle').symm (max_eq_right (neg_nonpos.mpr hle')).symm ?_ ?_ ?_
        · rw [Function.update_self, max_eq_left hle']
        · rw [Function.update_of_ne (by omega), t0.2, max_eq_right (neg_nonpos.mpr hle')]
        · intro k h2 _; rw [Function.update_of_ne h2]
    · simp only [if_neg hb]
      have hr := I.rest js hj (fun h => hb h.1)
      have hg := h2g js hj (fun h => hb h.1)
      refine ⟨?_, ?_, ?_, ?_, ?_⟩
      · change s.2 = _
        rw [Nat.count_succ, I.k, if_neg (by rw [hid]; exact hb), Nat.add_zero]
      · intro i hi h hl
        simp only
        rw [Function.update_of_ne (by omega), Function.update_of_ne (by omega), Function.update_of_ne (by omega),
              Function.update_of_ne (by omega)]
        rcases uniq i (by omega) h hl with h' | h'
        · exact I.done i hi h h'
        · omega
      · intro i hi h hl
        simp only
        rw [Function.update_of_ne (by omega), Function.update_of_ne (by omega), Function.update_of_ne (by omega),
              Function.update_of_ne (by omega)]
        exact I.todo i hi h (by omega)
      · intro i hi h
        simp only
        rw [Function.update_of_ne (by omega), Function.update_of_ne (by omega), Function.update_of_ne (by omega),
              Function.update_of_ne (by omega)]
        exact I.rest i hi h
      · intro i hi h hl
        simp only
        rcases uniq i (by omega) h hl with h' | h'
        · have := hq.slack_lt i hi h
          rw [Function.update_of_ne (by omega), Function.update_of_ne (by omega), Function.update_of_ne (by omega),
              Function.update_of_ne (by omega)]
          exact I.slk i hi h h'
        · subst h'
          rw [hjn, Function.update_of_ne (by omega), Function.update_self, Function.update_self, hr.1, hr.2, hg.1, hg.2]
          exact ⟨rfl, rfl⟩

/-- the multipliers returned by the interface in closed form -/
theorem lam_spec {q : DQp K} (hq : WF q) (hs : Sorted q) (hm : ∀ i, q.mask i = 1) (y : Nat → K)
    (hsoft : ∀ i, i < q.nb → SS q i → y (q.idxb i) = 0)
    (hy : ∀ t, t < 2 * q.ns → 0 ≤ y (q.nv + t)) :
    (∀ i, i < q.nb + q.ng → qpoasesLam q y i = max (dualOf q y i) 0 ∧
      qpoasesLam q y (q.nb + q.ng + i) = max (-dualOf q y i) 0) ∧
    (∀ i, i < q.nb + q.ng → SS q i →
      qpoasesLam q y (2 * (q.nb + q.ng) + slackOf q i) = y (q.nv + slackOf q i) - max (-dualOf q y i) 0 ∧
      qpoasesLam q y (2 * (q.nb + q.ng) + q.ns + slackOf q i)
        = y (q.nv + q.ns + slackOf q i) - max (dualOf q y i) 0) := by
  have hmask : ∀ j, qpoasesLam q y j = (List.foldl (slackStep q (idxsOf q) y)
     ((List.range q.ng).foldl (fun l i => split l (q.nb + i) (2 * q.nb + q.ng + i) (y (q.nv + 2 * q.ns + i)))
       ((List.range q.nb).foldl (fun l i => split l i (q.nb + q.ng + i) (y (q.idxb i))) fun _ => 0), 0)
         (List.range q.ns)).1 j := by
    intro j
    unfold qpoasesLam
    simp only [hm, mul_one, ite_self]
  have L1 := split_loop q.nb 0 (q.nb + q.ng) (by omega) (fun i => y (q.idxb i)) (fun _ => 0) fun i _ => ⟨rfl, rfl⟩
  simp only [Nat.zero_add] at L1
  generalize (List.range q.nb).foldl (fun l i => split l i (q.nb + q.ng + i) (y (q.idxb i))) (fun _ => 0) = l1
    at L1 hmask
  have L2 := split_loop q.ng q.nb (2 * q.nb + q.ng) (by omega) (fun i => y (q.nv + 2 * q.ns + i)) l1 fun i hi =>
    ⟨L1.2 _ fun k hk => ⟨by omega, by omega⟩, L1.2 _ fun k hk => ⟨by omega, by omega⟩⟩
  generalize (List.range q.ng).foldl (fun l i => split l (q.nb + i) (2 * q.nb + q.ng + i) (y (q.nv + 2 * q.ns + i))) l1
    = l2 at L2 hmask
  have hb : ∀ i, i < q.nb → l2 i = max (y (q.idxb i)) 0 ∧ l2 (q.nb + q.ng + i) = max (-y (q.idxb i)) 0 := by
    intro i hi
    rw [L2.2 i fun k hk => ⟨by omega, by omega⟩, L2.2 _ fun k hk => ⟨by omega, by omega⟩]
    exact L1.1 i hi
  have h2s : ∀ i, i < q.nb → SS q i → l2 i = 0 ∧ l2 (q.nb + q.ng + i) = 0 := by
    intro i hi h
    rw [(hb i hi).1, (hb i hi).2, hsoft i hi h]; simp
  have h2g : ∀ i, i < q.nb + q.ng → ¬ (i < q.nb ∧ SS q i) →
      l2 i = max (dualOf q y i) 0 ∧ l2 (q.nb + q.ng + i) = max (-dualOf q y i) 0 := by
    intro i hi h
    unfold dualOf
    by_cases hlt : i < q.nb
    · rw [if_pos hlt, if_neg fun h' => h ⟨hlt, h'⟩]; exact hb i hlt
    · rw [if_neg hlt]
      have := L2.1 (i - q.nb) (by omega)
      rwa [show q.nb + (i - q.nb) = i by omega,
        show 2 * q.nb + q.ng + (i - q.nb) = q.nb + q.ng + i by omega] at this
  have I := slack_loop hq hs y l2 h2s h2g hy q.ns le_rfl
  refine ⟨fun i hi => ?_, fun i hi h => ?_⟩
  · rw [hmask, hmask]
    by_cases h : i < q.nb ∧ SS q i
    · exact I.done i h.1 h.2 (hq.slack_lt i hi h.2)
    · rw [(I.rest i hi h).1, (I.rest i hi h).2]; exact h2g i hi h
  · rw [hmask, hmask]
    exact I.slk i hi h (hq.slack_lt i hi h)
end
end Acados.DenseQp
