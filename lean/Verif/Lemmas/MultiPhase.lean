import Verif.Model.MultiPhase
import Mathlib.Tactic.Linarith
import Mathlib.Algebra.Order.BigOperators.Group.List
/-!
# Lemmas on multi-phase problems
-/
namespace Acados.MultiPhase
variable {K : Type}

/-! ### the indices -/

/-- start and end of the phases -/
def pairs (a : Int) : List Int → List (Int × Int)
  | [] => []
  | n :: l => (a, a + n) :: pairs (a + n) l

theorem cumsum_eq_cons (a : Int) (l : List Int) : ∃ t, cumsum a l = a :: t := by cases l <;> exact ⟨_, rfl⟩

theorem zip_start (a : Int) (l : List Int) : (cumsum a l).dropLast.zip (cumsum a l).tail = pairs a l := by
  induction l generalizing a with
  | nil => rfl
  | cons n l ih =>
    obtain ⟨t, ht⟩ := cumsum_eq_cons (a + n) l
    have := ih (a + n)
    show (a :: cumsum (a + n) l).dropLast.zip (cumsum (a + n) l) = (a, a + n) :: pairs (a + n) l
    rw [← this, ht]
    rfl

theorem zip_tail (a : Int) (l : List Int) : (cumsum a l).zip (cumsum a l).tail = pairs a l := by
  induction l generalizing a with
  | nil => rfl
  | cons n l ih =>
    obtain ⟨t, ht⟩ := cumsum_eq_cons (a + n) l
    have := ih (a + n)
    show (a :: cumsum (a + n) l).zip (cumsum (a + n) l) = (a, a + n) :: pairs (a + n) l
    rw [← this, ht]
    rfl

theorem start_end (Nl : List Int) : (startIdx Nl).zip (endIdx Nl) = pairs 0 Nl := zip_start 0 Nl

theorem cost_end (n : Int) (Nl : List Int) : (costStartIdx (n :: Nl)).zip (endIdx (n :: Nl)) = (1, n) :: pairs n Nl := by
  obtain ⟨t, ht⟩ := cumsum_eq_cons (0 + n) Nl
  have h := zip_tail (0 + n) Nl
  show ((0 + 1) :: cumsum (0 + n) Nl).zip (cumsum (0 + n) Nl) = _
  rw [zero_add, zero_add] at *
  rw [← h, ht]
  rfl

theorem mem_irange {a b i : Int} : i ∈ irange a b ↔ a ≤ i ∧ i < b := by
  unfold irange
  simp only [List.mem_map, List.mem_range]
  constructor
  · rintro ⟨k, hk, rfl⟩; omega
  · rintro ⟨h1, h2⟩
    exact ⟨(i - a).toNat, by omega, by omega⟩

/-- the writes of a loop over phases -/
def flat {α : Type} (prs : List (Int × Int)) (phs : List (Phase K)) (val : Phase K → α) : List (Int × α) :=
  (prs.zip phs).flatMap fun abp => (irange abp.1.1 abp.1.2).map fun i => (i, val abp.2)

theorem mem_flat {α : Type} (a : Int) (Nl : List Int) (phs : List (Phase K)) (val : Phase K → α) (w : Int × α) :
    w ∈ flat (pairs a Nl) phs val ↔ ∃ j ph, phs[j]? = some ph ∧ j < Nl.length ∧ a + (Nl.take j).sum ≤ w.1
      ∧ w.1 < a + (Nl.take (j + 1)).sum ∧ w.2 = val ph := by
  induction Nl generalizing a phs with
  | nil =>
    constructor
    · intro h; cases h
    · rintro ⟨j, ph, _, h, _⟩; cases h
  | cons n Nl ih =>
    cases phs with
    | nil =>
      constructor
      · intro h; cases h
      · rintro ⟨j, ph, h, _⟩; cases h
    | cons ph phs =>
      have e : flat (pairs a (n :: Nl)) (ph :: phs) val
          = ((irange a (a + n)).map fun i => (i, val ph)) ++ flat (pairs (a + n) Nl) phs val := rfl
      rw [e, List.mem_append, ih]
      constructor
      · rintro (h | ⟨j, q, h1, h2, h3, h4, h5⟩)
        · obtain ⟨i, hi, rfl⟩ := List.mem_map.1 h
          have := mem_irange.1 hi
          exact ⟨0, ph, rfl, by simp, by simpa using this.1, by simpa using this.2, rfl⟩
        · refine ⟨j + 1, q, h1, by simpa using h2, ?_, ?_, h5⟩
          · rw [List.take_succ_cons, List.sum_cons]; omega
          · rw [List.take_succ_cons, List.sum_cons]; omega
      · rintro ⟨j, q, h1, h2, h3, h4, h5⟩
        cases j with
        | zero =>
          left
          cases h1
          refine List.mem_map.2 ⟨w.1, mem_irange.2 ⟨by simpa using h3, by simpa using h4⟩, ?_⟩
          rw [← h5]
        | succ j =>
          right
          rw [List.take_succ_cons, List.sum_cons] at h3 h4
          exact ⟨j, q, h1, by simpa using h2, by omega, by omega, h5⟩

theorem mem_loops {α : Type} (Nl : List Int) (phs : List (Phase K)) (val : Phase K → α) (w : Int × α) :
    w ∈ loops (startIdx Nl) (endIdx Nl) phs val ↔ ∃ j ph, phs[j]? = some ph ∧ InPhase Nl w.1 j ∧ w.2 = val ph := by
  unfold loops
  rw [start_end]
  have := mem_flat 0 Nl phs val w
  unfold flat at this
  rw [this]
  unfold InPhase
  simp only [zero_add]
  constructor
  · rintro ⟨j, ph, h1, h2, h3, h4, h5⟩; exact ⟨j, ph, h1, ⟨h2, h3, h4⟩, h5⟩
  · rintro ⟨j, ph, h1, ⟨h2, h3, h4⟩, h5⟩; exact ⟨j, ph, h1, h2, h3, h4, h5⟩

theorem mem_costLoops {α : Type} (Nl : List Int) (phs : List (Phase K)) (val : Phase K → α) (w : Int × α) (hN : ∀ n ∈ Nl, 1 ≤ n) :
    w ∈ loops (costStartIdx Nl) (endIdx Nl) phs val ↔ 0 < w.1 ∧ ∃ j ph, phs[j]? = some ph ∧ InPhase Nl w.1 j ∧ w.2 = val ph := by
  rw [← mem_loops]
  cases Nl with
  | nil =>
    constructor
    · intro h; unfold loops endIdx phaseIdx cumsum at h; simp at h
    · rintro ⟨_, h⟩; unfold loops endIdx phaseIdx cumsum at h; simp at h
  | cons n Nl =>
    have hn := hN n List.mem_cons_self
    unfold loops
    rw [cost_end, start_end]
    cases phs with
    | nil => simp
    | cons ph phs =>
      show w ∈ ((irange 1 n).map fun i => (i, val ph)) ++ flat (pairs n Nl) phs val
        ↔ 0 < w.1 ∧ w ∈ ((irange 0 (0 + n)).map fun i => (i, val ph)) ++ flat (pairs (0 + n) Nl) phs val
      rw [zero_add, List.mem_append, List.mem_append]
      constructor
      · rintro (h | h)
        · obtain ⟨i, hi, rfl⟩ := List.mem_map.1 h
          have := mem_irange.1 hi
          exact ⟨by dsimp only; omega, Or.inl (List.mem_map.2 ⟨i, mem_irange.2 ⟨by omega, this.2⟩, rfl⟩)⟩
        · refine ⟨?_, Or.inr h⟩
          obtain ⟨j, q, _, _, h3, _⟩ := (mem_flat n Nl phs val w).1 h
          have : 0 ≤ (Nl.take j).sum := List.sum_nonneg fun x hx =>
            le_trans zero_le_one (hN x (List.mem_cons_of_mem _ (List.mem_of_mem_take hx)))
          omega
      · rintro ⟨h0, h | h⟩
        · obtain ⟨i, hi, rfl⟩ := List.mem_map.1 h
          have := mem_irange.1 hi
          dsimp only at h0
          exact Or.inl (List.mem_map.2 ⟨i, mem_irange.2 ⟨by omega, this.2⟩, rfl⟩)
        · exact Or.inr h

/-! ### phases of a stage -/

theorem take_sum_succ (Nl : List Int) (j : Nat) (hj : j < Nl.length) : (Nl.take (j + 1)).sum = (Nl.take j).sum + Nl[j] := by
  rw [List.take_succ_eq_append_getElem hj, List.sum_append]
  simp

theorem take_sum_mono (Nl : List Int) (hN : ∀ n ∈ Nl, 0 ≤ n) {j k : Nat} (h : j ≤ k) : (Nl.take j).sum ≤ (Nl.take k).sum := by
  induction k, h using Nat.le_induction with
  | base => exact le_refl _
  | succ k hk ih =>
    by_cases hl : k < Nl.length
    · rw [take_sum_succ Nl k hl]
      have := hN _ (List.getElem_mem hl)
      omega
    · rw [List.take_of_length_le (show Nl.length ≤ k + 1 by omega)]
      rw [List.take_of_length_le (show Nl.length ≤ k by omega)] at ih
      exact ih

theorem take_sum_le (Nl : List Int) (hN : ∀ n ∈ Nl, 0 ≤ n) (j : Nat) : (Nl.take j).sum ≤ Nl.sum := by
  have := take_sum_mono Nl hN (Nat.le_max_left j Nl.length)
  rw [List.take_of_length_le (Nat.le_max_right _ _)] at this
  exact this

theorem InPhase.unique {Nl : List Int} {i : Int} {j k : Nat} (hN : ∀ n ∈ Nl, 0 ≤ n) (hj : InPhase Nl i j) (hk : InPhase Nl i k) : j = k := by
  obtain ⟨_, a1, a2⟩ := hj
  obtain ⟨_, b1, b2⟩ := hk
  rcases lt_trichotomy j k with h | h | h
  · have := take_sum_mono Nl hN (show j + 1 ≤ k from h); omega
  · exact h
  · have := take_sum_mono Nl hN (show k + 1 ≤ j from h); omega

theorem InPhase.range {Nl : List Int} {i : Int} {j : Nat} (hN : ∀ n ∈ Nl, 0 ≤ n) (hj : InPhase Nl i j) : 0 ≤ i ∧ i < Nl.sum := by
  obtain ⟨_, a1, a2⟩ := hj
  have h1 := take_sum_le Nl hN (j + 1)
  have h2 : 0 ≤ (Nl.take j).sum := List.sum_nonneg fun x hx => hN x (List.mem_of_mem_take hx)
  omega

theorem InPhase.exists (Nl : List Int) (i : Int) (h0 : 0 ≤ i) (h1 : i < Nl.sum) : ∃ j, InPhase Nl i j := by
  by_contra hn
  have : ∀ j, j ≤ Nl.length → (Nl.take j).sum ≤ i := by
    intro j
    induction j with
    | zero => intro _; simpa using h0
    | succ j ih =>
      intro hj
      by_contra hc
      exact hn ⟨j, hj, ih (by omega), by omega⟩
  have := this Nl.length (le_refl _)
  rw [List.take_length] at this
  omega

/-! ### entries -/

theorem entry_of {α : Type} {ws : List (Int × α)} {i : Int} {v : α} (hall : ∀ w ∈ ws, w.1 = i → w.2 = v) (hex : ∃ w ∈ ws, w.1 = i) :
    entry ws i = some v := by
  unfold entry
  cases h : (ws.filter fun w => decide (w.1 = i)).getLast? with
  | none =>
    rw [List.getLast?_eq_none_iff] at h
    obtain ⟨w, hw, hi⟩ := hex
    have : w ∈ ws.filter fun w => decide (w.1 = i) := List.mem_filter.2 ⟨hw, by simpa using hi⟩
    rw [h] at this
    cases this
  | some w =>
    have hm := List.mem_of_getLast? h
    obtain ⟨h1, h2⟩ := List.mem_filter.1 hm
    rw [Option.map_some, hall w h1 (by simpa using h2)]

theorem entry_append_right {α : Type} {a b : List (Int × α)} {i : Int} (h : ∃ w ∈ b, w.1 = i) : entry (a ++ b) i = entry b i := by
  unfold entry
  rw [List.filter_append, List.getLast?_append]
  cases hb : (b.filter fun w => decide (w.1 = i)).getLast? with
  | none =>
    rw [List.getLast?_eq_none_iff] at hb
    obtain ⟨w, hw, hi⟩ := h
    have : w ∈ b.filter fun w => decide (w.1 = i) := List.mem_filter.2 ⟨hw, by simpa using hi⟩
    rw [hb] at this
    cases this
  | some w => rfl

theorem entry_append_left {α : Type} {a b : List (Int × α)} {i : Int} (h : ∀ w ∈ b, w.1 ≠ i) : entry (a ++ b) i = entry a i := by
  unfold entry
  rw [List.filter_append]
  have : b.filter (fun w => decide (w.1 = i)) = [] := by
    rw [List.filter_eq_nil_iff]
    intro w hw
    simpa using h w hw
  rw [this, List.append_nil]

theorem nonneg_of_pos {Nl : List Int} (hN : ∀ n ∈ Nl, 1 ≤ n) : ∀ n ∈ Nl, 0 ≤ n := fun n hn => le_trans zero_le_one (hN n hn)

theorem sum_pos {Nl : List Int} (hN : ∀ n ∈ Nl, 1 ≤ n) (hne : Nl ≠ []) : 1 ≤ Nl.sum := by
  cases Nl with
  | nil => exact absurd rfl hne
  | cons n l =>
    have h1 := hN n List.mem_cons_self
    have h2 : 0 ≤ l.sum := List.sum_nonneg fun x hx => nonneg_of_pos hN x (List.mem_cons_of_mem _ hx)
    rw [List.sum_cons]
    omega

theorem dim_path (ph : Phase K) (d : Dim) : pathDim ph d = ph.dim .path d := by cases d <;> rfl
theorem dim_init (ph : Phase K) (d : Dim) : initDim ph d = ph.dim .init d := by cases d <;> rfl
theorem dim_term (ph : Phase K) (d : Dim) : termDim ph d = ph.dim .term d := by cases d <;> rfl

theorem plan_entries {α : Type} (Nl : List Int) (phs : List (Phase K)) (v0 v ve : Phase K → α) (hN : ∀ n ∈ Nl, 1 ≤ n) (hne : Nl ≠ []) :
    inBounds (Nl.sum + 1) (planWrites Nl phs v0 v ve) = true
    ∧ (∀ ph, phs.head? = some ph → entry (planWrites Nl phs v0 v ve) 0 = some (v0 ph))
    ∧ (∀ i j ph, 0 < i → InPhase Nl i j → phs[j]? = some ph → entry (planWrites Nl phs v0 v ve) i = some (v ph))
    ∧ ∀ ph, phs.getLast? = some ph → entry (planWrites Nl phs v0 v ve) Nl.sum = some (ve ph) := by
  have hs := sum_pos hN hne
  have h0 := nonneg_of_pos hN
  refine ⟨?_, ?_, ?_, ?_⟩
  · unfold inBounds
    rw [List.all_eq_true]
    intro w hw
    unfold planWrites at hw
    rw [List.mem_append, List.mem_append] at hw
    rcases hw with (h | h) | h
    · obtain ⟨ph, _, rfl⟩ := List.mem_map.1 h
      simp; omega
    · obtain ⟨_, j, ph, _, hp, _⟩ := (mem_costLoops Nl phs v w hN).1 h
      have := hp.range h0
      simp; omega
    · obtain ⟨ph, _, rfl⟩ := List.mem_map.1 h
      simp; omega
  · intro ph hph
    refine entry_of ?_ ⟨(0, v0 ph), ?_, rfl⟩
    · intro w hw hi
      unfold planWrites at hw
      rw [List.mem_append, List.mem_append] at hw
      rcases hw with (h | h) | h
      · rw [hph] at h
        obtain ⟨q, hq, rfl⟩ := List.mem_map.1 h
        simp at hq
        rw [hq]
      · have := ((mem_costLoops Nl phs v w hN).1 h).1
        omega
      · obtain ⟨q, _, rfl⟩ := List.mem_map.1 h
        dsimp only at hi
        omega
    · unfold planWrites
      rw [List.mem_append, List.mem_append]
      exact Or.inl (Or.inl (by rw [hph]; simp))
  · intro i j ph hi hp hph
    have hr := hp.range h0
    refine entry_of ?_ ⟨(i, v ph), ?_, rfl⟩
    · intro w hw hwi
      unfold planWrites at hw
      rw [List.mem_append, List.mem_append] at hw
      rcases hw with (h | h) | h
      · obtain ⟨q, _, rfl⟩ := List.mem_map.1 h
        dsimp only at hwi
        omega
      · obtain ⟨_, k, q, hq, hk, hv⟩ := (mem_costLoops Nl phs v w hN).1 h
        rw [hwi] at hk
        have := hp.unique h0 hk
        subst this
        rw [hph] at hq
        cases hq
        exact hv
      · obtain ⟨q, _, rfl⟩ := List.mem_map.1 h
        dsimp only at hwi
        omega
    · unfold planWrites
      rw [List.mem_append, List.mem_append]
      exact Or.inl (Or.inr ((mem_costLoops Nl phs v (i, v ph) hN).2 ⟨hi, j, ph, hph, hp, rfl⟩))
  · intro ph hph
    unfold planWrites
    rw [hph]
    rw [entry_append_right ⟨(Nl.sum, ve ph), by simp, rfl⟩]
    exact entry_of (fun w hw _ => by
      simp at hw
      rw [hw]) ⟨(Nl.sum, ve ph), by simp, rfl⟩

theorem dyn_entries (Nl : List Int) (phs : List (Phase K)) (hN : ∀ n ∈ Nl, 0 ≤ n) :
    inBounds Nl.sum (dynWrites Nl phs) = true
    ∧ ∀ i j ph, InPhase Nl i j → phs[j]? = some ph → entry (dynWrites Nl phs) i = some ph.integ := by
  constructor
  · unfold inBounds
    rw [List.all_eq_true]
    intro w hw
    obtain ⟨j, ph, _, hp, _⟩ := (mem_loops Nl phs _ w).1 hw
    have := hp.range hN
    simp; omega
  · intro i j ph hp hph
    refine entry_of ?_ ⟨(i, ph.integ), (mem_loops Nl phs _ _).2 ⟨j, ph, hph, hp, rfl⟩, rfl⟩
    intro w hw hwi
    obtain ⟨k, q, hq, hk, hv⟩ := (mem_loops Nl phs _ w).1 hw
    rw [hwi] at hk
    have := hp.unique hN hk
    subst this
    rw [hph] at hq
    cases hq
    exact hv

theorem dim_entries (Nl : List Int) (phs : List (Phase K)) (d : Dim) (hN : ∀ n ∈ Nl, 1 ≤ n) (hne : Nl ≠ []) :
    inBounds (Nl.sum + 1) (dimWrites Nl phs d) = true
    ∧ (∀ ph, phs.head? = some ph → entry (dimWrites Nl phs d) 0 = some (ph.dim .init d))
    ∧ (∀ i j ph, 0 < i → InPhase Nl i j → phs[j]? = some ph → entry (dimWrites Nl phs d) i = some (ph.dim .path d))
    ∧ ∀ ph, phs.getLast? = some ph → entry (dimWrites Nl phs d) Nl.sum = some (ph.dim .term d) := by
  have hs := sum_pos hN hne
  have h0 := nonneg_of_pos hN
  have hterm : ∀ i, i ≠ Nl.sum → ∀ w ∈ (phs.getLast?.toList.map fun ph => (Nl.sum, termDim ph d)), w.1 ≠ i := by
    intro i hi w hw
    obtain ⟨q, _, rfl⟩ := List.mem_map.1 hw
    exact fun h => hi h.symm
  refine ⟨?_, ?_, ?_, ?_⟩
  · unfold inBounds
    rw [List.all_eq_true]
    intro w hw
    unfold dimWrites at hw
    rw [List.mem_append, List.mem_append] at hw
    rcases hw with (h | h) | h
    · obtain ⟨j, ph, _, hp, _⟩ := (mem_loops Nl phs _ w).1 h
      have := hp.range h0
      simp; omega
    · obtain ⟨ph, _, rfl⟩ := List.mem_map.1 h
      simp; omega
    · obtain ⟨ph, _, rfl⟩ := List.mem_map.1 h
      simp; omega
  · intro ph hph
    unfold dimWrites
    rw [entry_append_left (hterm 0 (by omega)), hph, entry_append_right ⟨(0, initDim ph d), by simp, rfl⟩, ← dim_init]
    exact entry_of (fun w hw _ => by
      simp at hw
      rw [hw]) ⟨(0, initDim ph d), by simp, rfl⟩
  · intro i j ph hi hp hph
    have hr := hp.range h0
    unfold dimWrites
    rw [entry_append_left (hterm i (by omega)), entry_append_left (by
      intro w hw
      obtain ⟨q, _, rfl⟩ := List.mem_map.1 hw
      dsimp only; omega), ← dim_path]
    refine entry_of ?_ ⟨(i, pathDim ph d), (mem_loops Nl phs _ _).2 ⟨j, ph, hph, hp, rfl⟩, rfl⟩
    intro w hw hwi
    obtain ⟨k, q, hq, hk, hv⟩ := (mem_loops Nl phs _ w).1 hw
    rw [hwi] at hk
    have := hp.unique h0 hk
    subst this
    rw [hph] at hq
    cases hq
    exact hv
  · intro ph hph
    unfold dimWrites
    rw [hph, entry_append_right ⟨(Nl.sum, termDim ph d), by simp, rfl⟩, ← dim_term]
    exact entry_of (fun w hw _ => by
      simp at hw
      rw [hw]) ⟨(Nl.sum, termDim ph d), by simp, rfl⟩

theorem npAt_path (Nl : List Int) (phs : List (Phase K)) (hN : ∀ n ∈ Nl, 1 ≤ n) (i : Int) (j : Nat) (ph : Phase K)
    (hp : InPhase Nl i j) (hph : phs[j]? = some ph) : npAt Nl phs i = ph.dims .path .np := by
  have hne : Nl ≠ [] := by
    rintro rfl
    exact absurd hp.1 (by simp)
  obtain ⟨_, h1, h2, _⟩ := dim_entries Nl phs .np hN hne
  unfold npAt
  have hr := hp.range (nonneg_of_pos hN)
  by_cases hi : 0 < i
  · rw [h2 i j ph hi hp hph]; rfl
  · have hi0 : i = 0 := by omega
    subst hi0
    have hj : j = 0 := by
      by_contra hn
      have h1 := take_sum_mono Nl (nonneg_of_pos hN) (show 1 ≤ j by omega)
      have h2 := hp.2.1
      cases Nl with
      | nil => exact hne rfl
      | cons n l =>
        have := hN n List.mem_cons_self
        simp at h1
        omega
    subst hj
    rw [h1 ph (by rw [List.head?_eq_getElem?]; exact hph)]
    rfl

/-! ### transitions -/

theorem transitionsOk_get (Nl : List Int) (phs : List (Phase K)) (h : transitionsOk Nl phs = true) (j : Nat) (a b : Phase K) (n : Int)
    (hn : Nl[j]? = some n) (ha : phs[j]? = some a) (hb : phs[j + 1]? = some b) : transitionOk n a b = true := by
  induction j generalizing Nl phs with
  | zero =>
    match Nl, phs with
    | [], _ => cases hn
    | _ :: _, [] => cases ha
    | _ :: _, [_] => cases hb
    | m :: Nl, x :: y :: phs =>
      cases hn; cases ha; cases hb
      unfold transitionsOk at h
      exact (Bool.and_eq_true_iff.1 h).1
  | succ j ih =>
    match Nl, phs with
    | [], _ => cases hn
    | _ :: _, [] => cases ha
    | _ :: _, [_] => cases ha
    | m :: Nl, x :: y :: phs =>
      unfold transitionsOk at h
      exact ih Nl (y :: phs) (Bool.and_eq_true_iff.1 h).2 hn ha hb

theorem accepted_iff (Nl : List Int) (phs : List (PhaseIn K)) (integ : Option (List Integ)) (shared : Integ) (rest : Bool) :
    accepted Nl phs integ shared rest = true ↔ 0 ≤ Nl.sum ∧ phaseOption integ shared Nl.length = some (phs.map (·.data.integ))
      ∧ distinct (phs.map (·.model)) = true ∧ distinct (phs.map (·.cost)) = true ∧ distinct (phs.map (·.constr)) = true
      ∧ pGlobalOk (phs.map (·.pGlobal)) = true
      ∧ (∀ np ∈ Nl.zip (phs.map (·.data)), nxNextOk np.1 np.2 = true) ∧ rest = true ∧ transitionsOk Nl (phs.map (·.data)) = true := by
  unfold accepted
  simp only [Bool.and_eq_true, decide_eq_true_eq, List.all_eq_true]
  cases phaseOption integ shared Nl.length with
  | none => simp
  | some l => simp only [decide_eq_true_eq, Option.some.injEq]; tauto

theorem distinct_nodup (l : List Nat) (h : distinct l = true) : l.Nodup := by
  unfold distinct at h
  have h := beq_iff_eq.1 h
  have := (List.dedup_sublist l).eq_of_length h
  rw [← this]
  exact List.nodup_dedup l

/-- the phase of the next stage -/
theorem next_phase (Nl : List Int) (hN : ∀ n ∈ Nl, 1 ≤ n) (i : Int) (j : Nat) (h : InPhase Nl i j) :
    (InPhase Nl (i + 1) j ∧ ∃ n, Nl[j]? = some n ∧ 1 < n) ∨ InPhase Nl (i + 1) (j + 1) ∨ (i + 1 = Nl.sum ∧ j + 1 = Nl.length) := by
  obtain ⟨h1, h2, h3⟩ := h
  have hs := take_sum_succ Nl j h1
  by_cases hc : i + 1 < (Nl.take (j + 1)).sum
  · left
    exact ⟨⟨h1, by omega, hc⟩, Nl[j], List.getElem?_eq_getElem h1, by omega⟩
  · right
    have he : i + 1 = (Nl.take (j + 1)).sum := by omega
    by_cases hl : j + 1 < Nl.length
    · left
      have h4 := take_sum_succ Nl (j + 1) hl
      have h5 := hN _ (List.getElem_mem hl)
      exact ⟨hl, by omega, by omega⟩
    · right
      refine ⟨?_, by omega⟩
      rw [he, List.take_of_length_le (by omega)]

/-! ### names -/

theorem append_sep {a a' b b' : List Char} {c : Char} (hb : c ∉ b) (hb' : c ∉ b') (h : a ++ c :: b = a' ++ c :: b') : b = b' := by
  rcases List.append_eq_append_iff.1 h with ⟨t, h1, h2⟩ | ⟨t, h1, h2⟩
  · cases t with
    | nil => exact (List.cons.inj h2).2
    | cons x t =>
      exfalso
      have := (List.cons.inj h2).2
      apply hb
      rw [this]
      simp
  · cases t with
    | nil => exact ((List.cons.inj h2).2).symm
    | cons x t =>
      exfalso
      have := (List.cons.inj h2).2
      apply hb'
      rw [this]
      simp

theorem digits_inj {m n : Nat} (h : Nat.toDigits 10 m = Nat.toDigits 10 n) : m = n := by
  have h1 := @Nat.ofDigitChars_toDigits 10 m (by omega) (by omega)
  have h2 := @Nat.ofDigitChars_toDigits 10 n (by omega) (by omega)
  rw [h] at h1
  omega

theorem numbered_nodup (names : List (List Char)) (s : Nat) :
    ((names.zipIdx s).map fun nk : List Char × Nat => nk.1 ++ '_' :: Nat.toDigits 10 nk.2).Nodup := by
  induction names generalizing s with
  | nil => exact List.nodup_nil
  | cons n names ih =>
    rw [List.zipIdx_cons, List.map_cons, List.nodup_cons]
    refine ⟨?_, ih (s + 1)⟩
    intro hm
    obtain ⟨⟨m, k⟩, hk, he⟩ := List.mem_map.1 hm
    have := digits_inj (append_sep (Nat.underscore_not_in_toDigits) (Nat.underscore_not_in_toDigits) he)
    have hk := (List.mem_zipIdx hk).1
    dsimp only at this
    omega

/-! ### parameters -/

theorem any_false (Nl : List Int) (phs : List (Phase K)) (hN : ∀ n ∈ Nl, 0 ≤ n) (i : Int) (j : Nat) (ph : Phase K)
    (hp : InPhase Nl i j) (hph : phs[j]? = some ph) (np : Nat) :
    ((((startIdx Nl).zip (endIdx Nl)).zip phs).any fun abp =>
      decide (i ≥ abp.1.1) && decide (i < abp.1.2) && decide (abp.2.dims .path .np ≠ np)) = decide (ph.dims .path .np ≠ np) := by
  have key : ∀ q : Phase K, (i, q) ∈ loops (startIdx Nl) (endIdx Nl) phs id ↔
      ∃ ab, (ab, q) ∈ ((startIdx Nl).zip (endIdx Nl)).zip phs ∧ ab.1 ≤ i ∧ i < ab.2 := by
    intro q
    unfold loops
    rw [List.mem_flatMap]
    constructor
    · rintro ⟨⟨ab, r⟩, h1, h2⟩
      obtain ⟨x, hx, he⟩ := List.mem_map.1 h2
      cases he
      exact ⟨ab, h1, mem_irange.1 hx⟩
    · rintro ⟨ab, h1, h2⟩
      exact ⟨(ab, q), h1, List.mem_map.2 ⟨i, mem_irange.2 h2, rfl⟩⟩
  rw [Bool.eq_iff_iff, List.any_eq_true, decide_eq_true_eq]
  constructor
  · rintro ⟨⟨ab, q⟩, h1, h2⟩
    simp only [Bool.and_eq_true, decide_eq_true_eq] at h2
    obtain ⟨k, r, hr, hk, hv⟩ := (mem_loops Nl phs id (i, q)).1 ((key q).2 ⟨ab, h1, h2.1.1, h2.1.2⟩)
    have := hp.unique hN hk
    subst this
    rw [hph] at hr
    cases hr
    cases hv
    exact h2.2
  · intro hne
    obtain ⟨ab, h1, h2⟩ := (key ph).1 ((mem_loops Nl phs id (i, ph)).2 ⟨j, ph, hph, hp, rfl⟩)
    refine ⟨(ab, ph), h1, ?_⟩
    simp only [Bool.and_eq_true, decide_eq_true_eq]
    exact ⟨⟨h2.1, h2.2⟩, hne⟩

/-- parameters with those of one stage replaced -/
def setAt (P : Int → List K) (i : Int) (v : List K) : Int → List K := fun k => if k = i then v else P k

theorem updateParams_eq (Nl : List Int) (phs : List (Phase K)) (hN : ∀ n ∈ Nl, 1 ≤ n) (i : Int) (j : Nat) (ph : Phase K)
    (hp : InPhase Nl i j) (hph : phs[j]? = some ph) (p : List K) (np : Nat) (P : Int → List K) :
    updateParams Nl phs i p np P = if ph.dims .path .np ≠ np then .exit
      else if p.length < ph.dims .path .np then .ub else .ok (setAt P i (p.take (ph.dims .path .np))) := by
  have h0 := nonneg_of_pos hN
  have hr := hp.range h0
  unfold updateParams
  rw [any_false Nl phs h0 i j ph hp hph np, npAt_path Nl phs hN i j ph hp hph, if_neg (show ¬ (i < 0 ∨ i > Nl.sum) by omega)]
  simp only [decide_eq_true_eq]
  rfl

theorem setStages_eq (Nl : List Int) (phs : List (Phase K)) (hN : ∀ n ∈ Nl, 1 ≤ n) (j : Nat) (ph : Phase K) (hph : phs[j]? = some ph)
    (buf : List K) (hb : ph.dims .path .np ≤ buf.length) (l : List Int) (hl : ∀ i ∈ l, InPhase Nl i j) (P : Int → List K) :
    ∃ P', setStages Nl phs buf (ph.dims .path .np) l P = .ok P'
      ∧ (∀ i, i ∉ l → P' i = P i) ∧ ∀ i, i ∈ l → P' i = buf.take (ph.dims .path .np) := by
  induction l generalizing P with
  | nil => exact ⟨P, rfl, fun _ _ => rfl, fun i h => absurd h (by simp)⟩
  | cons i l ih =>
    have h1 := updateParams_eq Nl phs hN i j ph (hl i List.mem_cons_self) hph buf (ph.dims .path .np) P
    rw [if_neg (by simp), if_neg (by omega)] at h1
    obtain ⟨P', h2, h3, h4⟩ := ih (fun k hk => hl k (List.mem_cons_of_mem _ hk)) (setAt P i (buf.take (ph.dims .path .np)))
    refine ⟨P', ?_, ?_, ?_⟩
    · unfold setStages
      rw [h1]
      exact h2
    · intro k hk
      rw [h3 k (fun h => hk (List.mem_cons_of_mem _ h))]
      unfold setAt
      rw [if_neg (fun h => hk (by rw [h]; exact List.mem_cons_self))]
    · intro k hk
      by_cases hkl : k ∈ l
      · exact h4 k hkl
      · rw [h3 k hkl]
        rcases List.mem_cons.1 hk with rfl | h
        · unfold setAt; rw [if_pos rfl]
        · exact absurd h hkl

variable [Zero K] [DecidableEq K]

theorem fillBuf_length (ph : Phase K) (buf : List K) (h : ph.p.length ≤ buf.length) : (fillBuf ph buf).length = buf.length := by
  unfold fillBuf
  split
  · rw [List.length_append, List.length_drop]; omega
  · rw [List.length_map, List.length_zipIdx]

/-- the buffer after a phase -/
def stepBuf (buf : List K) (ph : Phase K) : List K := if ph.dims .path .np > 0 then fillBuf ph buf else buf

theorem setPhases_eq (Nl0 : List Int) (phs0 : List (Phase K)) (hN : ∀ n ∈ Nl0, 1 ≤ n) (Nl : List Int) (phs : List (Phase K))
    (preN : List Int) (pre : List (Phase K)) (e1 : Nl0 = preN ++ Nl) (e2 : phs0 = pre ++ phs) (e3 : preN.length = pre.length)
    (hl : phs.length = Nl.length) (buf : List K)
    (hb : ∀ ph ∈ phs, ph.p.length = ph.dims .path .np ∧ ph.dims .path .np ≤ buf.length) (P : Int → List K) :
    ∃ P', setPhases Nl0 phs0 ((pairs preN.sum Nl).zip phs) buf P = .ok P'
      ∧ (∀ i, i < preN.sum ∨ Nl0.sum ≤ i → P' i = P i)
      ∧ ∀ k ph i, phs[k]? = some ph → preN.sum + (Nl.take k).sum ≤ i → i < preN.sum + (Nl.take (k + 1)).sum →
        P' i = if ph.dims .path .np > 0 then ((phs.take (k + 1)).foldl stepBuf buf).take (ph.dims .path .np) else P i := by
  induction Nl generalizing phs preN pre buf P with
  | nil =>
    cases phs with
    | nil => exact ⟨P, rfl, fun _ _ => rfl, fun k ph i h => absurd h (by simp)⟩
    | cons q phs => cases hl
  | cons n Nl ih =>
    cases phs with
    | nil => cases hl
    | cons q phs =>
      have hn : 1 ≤ n := hN n (by rw [e1]; simp)
      have e1' : Nl0 = (preN ++ [n]) ++ Nl := by rw [e1]; simp
      have e2' : phs0 = (pre ++ [q]) ++ phs := by rw [e2]; simp
      have e3' : (preN ++ [n]).length = (pre ++ [q]).length := by simp [e3]
      have es : (preN ++ [n]).sum = preN.sum + n := by simp
      have hq := hb q List.mem_cons_self
      have hget : phs0[preN.length]? = some q := by
        rw [e2, e3, List.getElem?_append_right (le_refl _), Nat.sub_self]; rfl
      have htot : preN.sum + n ≤ Nl0.sum := by
        rw [e1']
        have : 0 ≤ Nl.sum := List.sum_nonneg fun x hx => nonneg_of_pos hN x (by rw [e1']; simp [hx])
        rw [List.sum_append, es]; omega
      have hin : ∀ i ∈ irange preN.sum (preN.sum + n), InPhase Nl0 i preN.length := by
        intro i hi
        have := mem_irange.1 hi
        refine ⟨by rw [e1]; simp, ?_, ?_⟩
        · rw [e1, List.take_left']; exact this.1; rfl
        · rw [e1', List.take_left', es]; exact this.2; simp
      have hlen : (stepBuf buf q).length = buf.length := by
        unfold stepBuf
        split
        · exact fillBuf_length q buf (by omega)
        · rfl
      have hstep : ∃ P1, setPhases Nl0 phs0 ((pairs preN.sum (n :: Nl)).zip (q :: phs)) buf P
            = setPhases Nl0 phs0 ((pairs (preN ++ [n]).sum Nl).zip phs) (stepBuf buf q) P1
          ∧ (∀ i, i ∉ irange preN.sum (preN.sum + n) → P1 i = P i)
          ∧ ∀ i, i ∈ irange preN.sum (preN.sum + n) → P1 i
            = if q.dims .path .np > 0 then (stepBuf buf q).take (q.dims .path .np) else P i := by
        rw [es]
        show ∃ P1, setPhases Nl0 phs0 (((preN.sum, preN.sum + n), q) :: (pairs (preN.sum + n) Nl).zip phs) buf P = _ ∧ _
        rw [setPhases]
        by_cases hpos : q.dims .path .np > 0
        · rw [if_pos hpos]
          have hst : stepBuf buf q = fillBuf q buf := by unfold stepBuf; rw [if_pos hpos]
          obtain ⟨P1, h1, h2, h3⟩ := setStages_eq Nl0 phs0 hN preN.length q hget (fillBuf q buf)
            (by rw [← hst, hlen]; exact hq.2) _ hin P
          refine ⟨P1, ?_, h2, ?_⟩
          · dsimp only
            rw [h1, hst]
          · intro i hi
            rw [if_pos hpos, hst]
            exact h3 i hi
        · rw [if_neg hpos]
          have hst : stepBuf buf q = buf := by unfold stepBuf; rw [if_neg hpos]
          refine ⟨P, by rw [hst], fun _ _ => rfl, ?_⟩
          intro i _
          rw [if_neg hpos]
      obtain ⟨P1, s1, s2, s3⟩ := hstep
      obtain ⟨P', h1, h2, h3⟩ := ih phs (preN ++ [n]) (pre ++ [q]) e1' e2' e3' (by simpa using hl) (stepBuf buf q)
        (fun r hr => by rw [hlen]; exact hb r (List.mem_cons_of_mem _ hr)) P1
      rw [es] at h2 h3
      refine ⟨P', by rw [s1]; exact h1, ?_, ?_⟩
      · intro i hi
        rw [h2 i (by omega), s2 i (by rw [mem_irange]; omega)]
      · intro k ph i hk hi1 hi2
        cases k with
        | zero =>
          cases hk
          have ha : preN.sum ≤ i := by simpa using hi1
          have hb' : i < preN.sum + n := by simpa using hi2
          rw [h2 i (by omega), s3 i (mem_irange.2 ⟨ha, hb'⟩)]
          rfl
        | succ k =>
          rw [List.take_succ_cons, List.sum_cons] at hi1 hi2
          rw [h3 k ph i hk (by omega) (by omega)]
          have : 0 ≤ (Nl.take k).sum := List.sum_nonneg fun x hx =>
            nonneg_of_pos hN x (by rw [e1']; simp [List.mem_of_mem_take hx])
          rw [s2 i (by rw [mem_irange]; omega)]
          rfl

theorem foldl_max_ge (l : List Nat) (a : Nat) : a ≤ l.foldl max a ∧ ∀ x ∈ l, x ≤ l.foldl max a := by
  induction l generalizing a with
  | nil => exact ⟨le_refl _, fun x h => absurd h (by simp)⟩
  | cons y l ih =>
    have := ih (max a y)
    refine ⟨le_trans (le_max_left a y) this.1, ?_⟩
    intro x hx
    rcases List.mem_cons.1 hx with rfl | h
    · exact le_trans (le_max_right a x) this.1
    · exact this.2 x h

theorem np_le_max (phs : List (Phase K)) (ph : Phase K) (h : ph ∈ phs) : ph.dims .path .np ≤ npMax phs :=
  (foldl_max_ge _ 0).2 _ (List.mem_map.2 ⟨ph, h, rfl⟩)

/-- creation succeeds, and what it leaves -/
theorem defaultParams_eq (Nl : List Int) (phs : List (Phase K)) (hN : ∀ n ∈ Nl, 1 ≤ n) (hl : phs.length = Nl.length)
    (hp : ∀ ph ∈ phs, ph.p.length = ph.dims .path .np) :
    ∃ P, defaultParams Nl phs = .ok P ∧ P Nl.sum = List.replicate (npAt Nl phs Nl.sum) 0
      ∧ ∀ i j ph, InPhase Nl i j → phs[j]? = some ph → P i = ((phs.take (j + 1)).foldl stepBuf (List.replicate (npMax phs) 0)).take (ph.dims .path .np) := by
  unfold defaultParams
  rw [start_end]
  obtain ⟨P, h1, h2, h3⟩ := setPhases_eq Nl phs hN Nl phs [] [] rfl rfl rfl hl (List.replicate (npMax phs) 0)
    (fun ph hph => ⟨hp ph hph, by rw [List.length_replicate]; exact np_le_max phs ph hph⟩)
    (fun i => List.replicate (npAt Nl phs i) 0)
  refine ⟨P, h1, h2 _ (Or.inr (le_refl _)), ?_⟩
  intro i j ph hi hph
  have := h3 j ph i hph (by simpa using hi.2.1) (by simpa using hi.2.2)
  rw [this]
  split
  · rfl
  · rename_i h
    rw [npAt_path Nl phs hN i j ph hi hph, show ph.dims .path .np = 0 by omega]
    rfl

theorem foldl_step_length (l : List (Phase K)) (buf : List K) (h : ∀ ph ∈ l, ph.p.length ≤ buf.length) :
    (l.foldl stepBuf buf).length = buf.length := by
  induction l generalizing buf with
  | nil => rfl
  | cons q l ih =>
    have hq : (stepBuf buf q).length = buf.length := by
      unfold stepBuf
      split
      · exact fillBuf_length q buf (h q List.mem_cons_self)
      · rfl
    rw [List.foldl_cons, ih _ (fun r hr => by rw [hq]; exact h r (List.mem_cons_of_mem _ hr)), hq]

theorem foldl_step_zero (l : List (Phase K)) (buf : List K) (h : ∀ ph ∈ l, ph.dims .path .np = 0) : l.foldl stepBuf buf = buf := by
  induction l with
  | nil => rfl
  | cons q l ih =>
    rw [List.foldl_cons]
    have : stepBuf buf q = buf := by
      unfold stepBuf
      rw [if_neg (by rw [h q List.mem_cons_self]; omega)]
    rw [this]
    exact ih fun r hr => h r (List.mem_cons_of_mem _ hr)

theorem fillBuf_dense (ph : Phase K) (buf : List K) (h : dense ph.p = true) : (fillBuf ph buf).take ph.p.length = ph.p := by
  unfold fillBuf
  rw [if_pos h, List.take_left']
  rfl

theorem fillBuf_zero (ph : Phase K) (n : Nat) (hn : ph.p.length ≤ n) : (fillBuf ph (List.replicate n 0)).take ph.p.length = ph.p := by
  unfold fillBuf
  split
  · rw [List.take_left']
    rfl
  · apply List.ext_getElem?
    intro k
    rw [List.getElem?_take]
    by_cases hk : k < ph.p.length
    · rw [if_pos hk, List.getElem?_map, List.getElem?_zipIdx, List.getElem?_replicate, if_pos (by omega)]
      simp only [Option.map_some, Nat.zero_add]
      rw [List.getElem?_eq_getElem hk]
      dsimp only
      split
      · rfl
      · rename_i h; rw [not_not.1 h]
    · rw [if_neg hk, List.getElem?_eq_none (by omega)]

end Acados.MultiPhase
