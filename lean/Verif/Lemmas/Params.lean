import Verif.Model.Params
import Mathlib.Data.List.Induction
import Mathlib.Tactic.Common
/-! # Lemmas about parameter memory -/
namespace Acados.Params
variable {K : Type*}

theorem fold_block {ι : Type*} [DecidableEq ι] (n : Nat) (addr : Nat → ι) (hinj : ∀ i < n, ∀ j < n, addr i = addr j → i = j)
    (p : Nat → K) (h : ι → K) :
    (∀ i < n, (List.range n).foldl (fun h i => Function.update h (addr i) (p i)) h (addr i) = p i)
    ∧ ∀ a, (∀ i < n, a ≠ addr i) → (List.range n).foldl (fun h i => Function.update h (addr i) (p i)) h a = h a := by
  induction n with
  | zero => simp
  | succ n ih =>
    obtain ⟨h1, h2⟩ := ih fun i hi j hj => hinj i (by omega) j (by omega)
    rw [List.range_succ, List.foldl_append]
    refine ⟨fun i hi => ?_, fun a ha => ?_⟩
    · simp only [List.foldl_cons, List.foldl_nil]
      by_cases e : i = n
      · subst e; simp
      · rw [Function.update_of_ne (fun e' => e (hinj i hi n (by omega) e')), h1 i (by omega)]
    · simp only [List.foldl_cons, List.foldl_nil]
      rw [Function.update_of_ne (ha n (by omega)), h2 a fun i hi => ha i (by omega)]

theorem fold_list {ι : Type*} [DecidableEq ι] (l : List (Int × K)) (addr : Int → ι)
    (hinj : ∀ i j, addr i = addr j → i = j) (h : ι → K) (i : Int) :
    l.foldl (fun h u => Function.update h (addr u.1) u.2) h (addr i)
      = ((l.reverse.find? fun u => u.1 == i).map Prod.snd).getD (h (addr i)) := by
  induction l using List.reverseRecOn generalizing h with
  | nil => simp
  | append_singleton l u ih =>
    rw [List.foldl_append, List.reverse_append]
    simp only [List.foldl_cons, List.foldl_nil, List.reverse_singleton, List.singleton_append, List.find?_cons]
    by_cases e : u.1 = i
    · simp [e]
    · rw [Function.update_of_ne (fun e' => e (hinj _ _ e'.symm)), ih]
      simp only [show (u.1 == i) = false by simpa using e]

theorem fold_list_frame {ι : Type*} [DecidableEq ι] (l : List (Int × K)) (addr : Int → ι) (h : ι → K) (a : ι)
    (ha : ∀ u ∈ l, a ≠ addr u.1) : l.foldl (fun h u => Function.update h (addr u.1) u.2) h a = h a := by
  induction l generalizing h with
  | nil => rfl
  | cons u l ih =>
    rw [List.foldl_cons, ih _ fun v hv => ha v (List.mem_cons_of_mem _ hv),
      Function.update_of_ne (ha u List.mem_cons_self)]

theorem base_add (np : Nat → Nat) (s d : Nat) : base np s + np s ≤ base np (s + 1 + d) := by
  induction d with
  | zero => exact Int.le_refl _
  | succ d ih =>
    change _ ≤ base np (s + 1 + d) + np (s + 1 + d)
    omega

/-- blocks of different stages are disjoint -/
theorem base_disjoint (np : Nat → Nat) {s t i j : Nat} (h : s ≠ t) (hi : i < np s) (hj : j < np t) :
    base np s + i ≠ base np t + j := by
  rcases Nat.lt_or_gt_of_ne h with h | h
  · obtain ⟨d, rfl⟩ := Nat.exists_eq_add_of_lt h
    have := base_add np s d
    rw [show s + d + 1 = s + 1 + d by omega]
    omega
  · obtain ⟨d, rfl⟩ := Nat.exists_eq_add_of_lt h
    have := base_add np t d
    rw [show t + d + 1 = t + 1 + d by omega] at hi ⊢
    omega

theorem inSet_spec (np : Nat → Nat) (s : Nat) (p : Nat → K) (h : Int → K) :
    (∀ i < np s, inSet np s p h (base np s + i) = p i)
    ∧ ∀ t ≠ s, ∀ i < np t, inSet np s p h (base np t + i) = h (base np t + i) := by
  obtain ⟨h1, h2⟩ := fold_block (np s) (fun i => base np s + (i : Int)) (fun i _ j _ e => by simpa using e) p h
  exact ⟨h1, fun t ht i hi => h2 _ fun j hj => base_disjoint np ht hi hj⟩

theorem setAllP_fold (np : Nat → Nat) (n : Nat) (p : Nat → K) (h : Int → K) :
    let r := (List.range n).foldl (setStage np p) (0, h)
    r.1 = offset np n ∧ (∀ s < n, ∀ i < np s, r.2 (base np s + i) = p (offset np s + i)) ∧
      ∀ s, n ≤ s → ∀ i < np s, r.2 (base np s + i) = h (base np s + i) := by
  induction n with
  | zero => simp [offset]
  | succ n ih =>
    intro r
    have hr : r = setStage np p ((List.range n).foldl (setStage np p) (0, h)) n := by
      simp only [r, List.range_succ, List.foldl_append, List.foldl_cons, List.foldl_nil]
    obtain ⟨i1, i2, i3⟩ := ih
    generalize (List.range n).foldl (setStage np p) (0, h) = q at *
    obtain ⟨h1, h2⟩ := fold_block (np n) (fun i => base np n + (i : Int)) (fun i _ j _ e => by simpa using e)
      (fun i => p (q.1 + i)) q.2
    clear_value r
    subst hr
    refine ⟨by show q.1 + np n = offset np n + np n; rw [i1], fun s hs i hi => ?_, fun s hs i hi => ?_⟩
    · by_cases e : s = n
      · subst e
        have := h1 i hi
        rw [← i1]
        exact this
      · exact (h2 _ fun j hj => base_disjoint np e hi hj).trans (i2 s (by omega) i hi)
    · exact (h2 _ fun j hj => base_disjoint np (by omega) hi hj).trans (i3 s (by omega) i hi)

theorem offset_add (np : Nat → Nat) (s d : Nat) : offset np s + np s ≤ offset np (s + 1 + d) := by
  induction d with
  | zero => exact le_refl _
  | succ d ih =>
    change _ ≤ offset np (s + 1 + d) + np (s + 1 + d)
    omega

theorem offset_disjoint (np : Nat → Nat) {s t i : Nat} (h : s < t) (hi : i < np s) : offset np s + i < offset np t := by
  obtain ⟨d, rfl⟩ := Nat.exists_eq_add_of_lt h
  have := offset_add np s d
  rw [show s + d + 1 = s + 1 + d by omega]
  omega

theorem getAllP_fold (np : Nat → Nat) (n : Nat) (h : Int → K) (o : Nat → K) :
    let r := (List.range n).foldl (getStage np h) (0, o)
    r.1 = offset np n ∧ (∀ s < n, ∀ i < np s, r.2 (offset np s + i) = h (base np s + i)) ∧
      ∀ a, offset np n ≤ a → r.2 a = o a := by
  induction n with
  | zero => simp [offset]
  | succ n ih =>
    intro r
    have hr : r = getStage np h ((List.range n).foldl (getStage np h) (0, o)) n := by
      simp only [r, List.range_succ, List.foldl_append, List.foldl_cons, List.foldl_nil]
    obtain ⟨i1, i2, i3⟩ := ih
    generalize (List.range n).foldl (getStage np h) (0, o) = q at *
    obtain ⟨h1, h2⟩ := fold_block (np n) (fun i => q.1 + i) (fun i _ j _ e => by simpa using e)
      (fun i => h (base np n + i)) q.2
    clear_value r
    subst hr
    refine ⟨by show q.1 + np n = offset np n + np n; rw [i1], fun s hs i hi => ?_, fun a ha => ?_⟩
    · by_cases e : s = n
      · subst e
        have := h1 i hi
        rw [← i1]
        exact this
      · have hd := offset_disjoint np (show s < n by omega) hi
        exact (h2 _ fun j hj => by omega).trans (i2 s (by omega) i hi)
    · change offset np n + np n ≤ a at ha
      exact (h2 _ fun j hj => by omega).trans (i3 a (by omega))

end Acados.Params
