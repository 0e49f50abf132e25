import Verif.Model.IterFile
import Mathlib.Data.Nat.Digits.Lemmas
/-!
# Lemmas on iterates in files
-/
namespace Acados.IterFile
variable {K : Type}

theorem mem_fields (f : Fld) : f ∈ fields := by cases f <;> decide

theorem ofDigits_replicate_zero (n : Nat) : Nat.ofDigits 10 (List.replicate n 0) = 0 := by
  induction n with
  | zero => rfl
  | succ n ih => rw [List.replicate_succ, Nat.ofDigits_cons, ih]

theorem stageNum_stageStr (l n : Nat) : stageNum (stageStr l n) = n := by
  unfold stageNum stageStr
  rw [Nat.ofDigits_append, Nat.ofDigits_digits, ofDigits_replicate_zero]
  omega

theorem stageStr_length {N i : Nat} (h : i ≤ N) : (stageStr (strLen N) i).length = strLen N := by
  unfold stageStr strLen
  have := Nat.le_digits_len_le 10 i (N + 1) (by omega)
  simp only [List.length_append, List.length_replicate]
  omega

theorem stageStr_inj {l i j : Nat} (h : stageStr l i = stageStr l j) : i = j := by
  rw [← stageNum_stageStr l i, h, stageNum_stageStr]

theorem lt_count_iff {N i : Nat} {f : Fld} : i < f.count N ↔ i < N + 1 ∧ (i < N ∨ f.atEnd = true) := by
  unfold Fld.count
  cases f.atEnd <;> simp <;> omega

theorem mem_store {s : Solver K} {e : (Fld × List Nat) × List K} :
    e ∈ store s ↔ ∃ i, i < e.1.1.count s.N ∧ s.val i e.1.1 ≠ [] ∧ e = ((e.1.1, stageStr (strLen s.N) i), s.val i e.1.1) := by
  unfold store
  simp only [List.mem_flatMap, List.mem_range, List.mem_filterMap]
  constructor
  · rintro ⟨i, hi, f, _, h⟩
    split at h
    · rename_i hc
      cases h
      exact ⟨i, lt_count_iff.2 ⟨hi, hc.1⟩, hc.2, rfl⟩
    · cases h
  · rintro ⟨i, hi, hn, he⟩
    have := lt_count_iff.1 hi
    refine ⟨i, this.1, e.1.1, mem_fields _, ?_⟩
    rw [if_pos ⟨this.2, hn⟩]
    exact congrArg some he.symm

theorem mem_toJson {it : Iterate K} {N : Nat} (hw : it.For N) {e : (Fld × List Nat) × List K} :
    e ∈ toJson it ↔ ∃ i v, i < e.1.1.count N ∧ (it e.1.1)[i]? = some v ∧ v ≠ [] ∧ e = ((e.1.1, stageStr (strLen N) i), v) := by
  have hx : (it .x).length = N + 1 := hw .x
  unfold toJson
  rw [hx]
  have key : ∀ (i : Nat) (f : Fld), (match (it f)[i]? with
      | some v => if v ≠ [] then some ((f, stageStr (strLen (N + 1 - 1)) i), v) else none
      | none => none) = some e ↔ e.1.1 = f ∧ ∃ v, (it f)[i]? = some v ∧ v ≠ [] ∧ e = ((f, stageStr (strLen N) i), v) := by
    intro i f
    rw [show N + 1 - 1 = N from rfl]
    cases h : (it f)[i]? with
    | none => simp
    | some v =>
      by_cases hv : v = []
      · simp [hv]
      · simp only [ne_eq, hv, not_false_eq_true, if_true, Option.some.injEq, exists_eq_left', true_and]
        constructor
        · rintro rfl; exact ⟨rfl, rfl⟩
        · rintro ⟨_, h⟩; exact h.symm
  simp only [List.mem_flatMap, List.mem_range, List.mem_append, List.mem_filterMap]
  constructor
  · rintro ⟨i, hi, h | h⟩
    · obtain ⟨f, hf, hk⟩ := h
      have hk := (key i f).1 hk
      revert hk; rintro ⟨hfe, v, h1, h2, h3⟩
      subst hfe
      refine ⟨i, v, lt_count_iff.2 ⟨hi, Or.inr ?_⟩, h1, h2, h3⟩
      generalize e.1.1 = g at hf
      cases g <;> first | rfl | simp at hf
    · split at h
      · rename_i hlt
        obtain ⟨f, hf, hk⟩ := List.mem_filterMap.1 h
        have hk := (key i f).1 hk
        revert hk; rintro ⟨hfe, v, h1, h2, h3⟩
        subst hfe
        exact ⟨i, v, lt_count_iff.2 ⟨hi, Or.inl (by omega)⟩, h1, h2, h3⟩
      · cases h
  · rintro ⟨i, v, hi, h1, h2, h3⟩
    have hc := lt_count_iff.1 hi
    refine ⟨i, hc.1, ?_⟩
    by_cases ha : e.1.1.atEnd = true
    · left
      refine ⟨e.1.1, ?_, (key i e.1.1).2 ⟨rfl, v, h1, h2, h3⟩⟩
      generalize e.1.1 = g at ha
      cases g <;> first | (simp; done) | cases ha
    · right
      have : i < N := hc.2.resolve_right ha
      rw [if_pos (by omega)]
      refine List.mem_filterMap.2 ⟨e.1.1, ?_, (key i e.1.1).2 ⟨rfl, v, h1, h2, h3⟩⟩
      generalize e.1.1 = g at ha
      cases g <;> first | exact absurd rfl ha | simp

/-- what a data set must look like to stand for the vectors `val` -/
structure Stands (d : Data K) (N : Nat) (it : Iterate K) : Prop where
  iff : ∀ e, e ∈ d ↔ ∃ i v, i < e.1.1.count N ∧ (it e.1.1)[i]? = some v ∧ v ≠ [] ∧ e = ((e.1.1, stageStr (strLen N) i), v)

theorem Stands.perm {d d' : Data K} {N : Nat} {it : Iterate K} (h : Stands d N it) (hp : d'.Perm d) : Stands d' N it :=
  ⟨fun e => (hp.mem_iff).trans (h.iff e)⟩

theorem toJson_stands {it : Iterate K} {N : Nat} (hw : it.For N) : Stands (toJson it) N it := ⟨fun _ => mem_toJson hw⟩

theorem store_stands {s : Solver K} {it : Iterate K} (h : s.Holds it) : Stands (store s) s.N it := by
  refine ⟨fun e => mem_store.trans ?_⟩
  constructor
  · rintro ⟨i, hi, hn, he⟩
    exact ⟨i, _, hi, h.2 _ i hi, hn, he⟩
  · rintro ⟨i, v, hi, hv, hn, he⟩
    have := h.2 e.1.1 i hi
    rw [this] at hv
    cases hv
    exact ⟨i, hi, hn, he⟩

theorem foldl_max_le (d : Data K) (m N : Nat) (hm : m ≤ N) (h : ∀ e ∈ d, stageNum e.1.2 ≤ N) :
    d.foldl (fun m e => max m (stageNum e.1.2)) m ≤ N := by
  induction d generalizing m with
  | nil => exact hm
  | cons e d ih =>
    exact ih _ (max_le hm (h e List.mem_cons_self)) (fun e he => h e (List.mem_cons_of_mem _ he))

theorem le_foldl_max (d : Data K) (m : Nat) :
    m ≤ d.foldl (fun m e => max m (stageNum e.1.2)) m ∧ ∀ e ∈ d, stageNum e.1.2 ≤ d.foldl (fun m e => max m (stageNum e.1.2)) m := by
  induction d generalizing m with
  | nil => exact ⟨le_refl _, fun e he => absurd he List.not_mem_nil⟩
  | cons e d ih =>
    obtain ⟨h1, h2⟩ := ih (max m (stageNum e.1.2))
    refine ⟨le_trans (le_max_left _ _) h1, fun e' he' => ?_⟩
    rcases List.mem_cons.1 he' with rfl | h
    · exact le_trans (le_max_right _ _) h1
    · exact h2 e' h

theorem Stands.maxStage_eq {d : Data K} {N : Nat} {it : Iterate K} (h : Stands d N it) (ht : it.TerminalData N) : maxStage d = N := by
  apply le_antisymm
  · refine foldl_max_le d 0 N (Nat.zero_le _) fun e he => ?_
    obtain ⟨i, v, hi, _, _, h3⟩ := (h.iff e).1 he
    rw [h3, stageNum_stageStr]
    have := (lt_count_iff.1 hi).1
    omega
  · obtain ⟨f, hf, v, hv, hn⟩ := ht
    have hm : ((f, stageStr (strLen N) N), v) ∈ d :=
      (h.iff _).2 ⟨N, v, lt_count_iff.2 ⟨Nat.lt_succ_self _, Or.inr hf⟩, hv, hn, rfl⟩
    have := (le_foldl_max d 0).2 _ hm
    rwa [stageNum_stageStr] at this

theorem Stands.lookup_eq {d : Data K} {N : Nat} {it : Iterate K} (h : Stands d N it) {f : Fld} {i : Nat} {v : List K}
    (hi : i < f.count N) (hv : (it f)[i]? = some v) :
    lookup d (f, stageStr (strLen N) i) = if v = [] then none else some v := by
  unfold lookup
  cases hf : d.find? (fun e => e.1 = (f, stageStr (strLen N) i)) with
  | none =>
    rw [List.find?_eq_none] at hf
    by_cases hn : v = []
    · simp [hn]
    · have hm := (h.iff ((f, stageStr (strLen N) i), v)).2 ⟨i, v, hi, hv, hn, rfl⟩
      exact absurd (by simp) (hf _ hm)
  | some e =>
    have hk := List.find?_some hf
    have hm := List.mem_of_find?_eq_some hf
    obtain ⟨j, w, hj, hw, hn, he⟩ := (h.iff e).1 hm
    simp only [decide_eq_true_eq] at hk
    rw [he] at hk
    have hff : e.1.1 = f := (Prod.mk.inj hk).1
    have hji : j = i := stageStr_inj (Prod.mk.inj hk).2
    subst hji
    rw [hff, hv] at hw
    cases hw
    rw [if_neg hn, Option.map_some, he]

theorem Stands.lookup_none {d : Data K} {N : Nat} {it : Iterate K} (h : Stands d N it) {f : Fld} {i : Nat} (hi : ¬ i < f.count N) :
    lookup d (f, stageStr (strLen N) i) = none := by
  unfold lookup
  rw [Option.map_eq_none_iff, List.find?_eq_none]
  intro e hm hk
  obtain ⟨j, w, hj, hw, hn, he⟩ := (h.iff e).1 hm
  simp only [decide_eq_true_eq] at hk
  rw [he] at hk
  have hff : e.1.1 = f := (Prod.mk.inj hk).1
  have hji : j = i := stageStr_inj (Prod.mk.inj hk).2
  rw [hff, hji] at hj
  exact hi hj

theorem flatMap_range_eq (n m : Nat) (g : Nat → List (List K)) (l : List (List K)) (hl : l.length = m) (hm : m ≤ n)
    (h1 : ∀ i (h : i < m), g i = [l[i]'(hl ▸ h)]) (h2 : ∀ i, m ≤ i → i < n → g i = []) : (List.range n).flatMap g = l := by
  have e1 : ∀ k, k ≤ m → (List.range k).flatMap g = l.take k := by
    intro k
    induction k with
    | zero => intro _; simp
    | succ k ih =>
      intro hk
      rw [List.range_succ, List.flatMap_append, ih (by omega), List.take_succ_eq_append_getElem (by omega)]
      simp [h1 k (by omega)]
  have e2 : ∀ k, m ≤ k → k ≤ n → (List.range k).flatMap g = l := by
    intro k hk
    induction k, hk using Nat.le_induction with
    | base => intro _; rw [e1 m (le_refl _), List.take_of_length_le (by omega)]
    | succ k hk ih =>
      intro hkn
      rw [List.range_succ, List.flatMap_append, ih (by omega)]
      simp [h2 k hk (by omega)]
  exact e2 n hm (le_refl _)

theorem Stands.fromJson_eq {d : Data K} {N : Nat} {it : Iterate K} (h : Stands d N it) (hw : it.For N) (ht : it.TerminalData N) :
    fromJson d = some it := by
  have hmax := h.maxStage_eq ht
  unfold fromJson
  cases d with
  | nil =>
    obtain ⟨f, hf, v, hv, hn⟩ := ht
    have hm := (h.iff ((f, stageStr (strLen N) N), v)).2 ⟨N, v, lt_count_iff.2 ⟨Nat.lt_succ_self _, Or.inr hf⟩, hv, hn, rfl⟩
    cases hm
  | cons e d =>
    dsimp only
    congr 1
    funext f
    have hlen : e.1.2.length = strLen N := by
      obtain ⟨i, v, hi, _, _, he⟩ := (h.iff e).1 List.mem_cons_self
      rw [he]
      exact stageStr_length (Nat.lt_succ_iff.1 (lt_count_iff.1 hi).1)
    rw [hmax, hlen]
    refine flatMap_range_eq (N + 1) (f.count N) _ (it f) (hw f) (by unfold Fld.count; split <;> omega) ?_ ?_
    · intro i hi
      have hi' : i < (it f).length := (hw f).symm ▸ hi
      rw [h.lookup_eq hi (List.getElem?_eq_getElem hi')]
      by_cases hn : (it f)[i] = []
      · rw [if_pos hn, hn]
        dsimp only
        rw [if_pos (lt_count_iff.1 hi).2]
      · rw [if_neg hn]
    · intro i hi hiN
      have hni : ¬ i < f.count N := by omega
      rw [h.lookup_none hni]
      dsimp only
      rw [if_neg fun hc => hni (lt_count_iff.2 ⟨hiN, hc⟩)]

/-! ### loops of sets -/

/-- value stored by a set -/
def put [Mul K] (mask : List K) (f : Fld) (v : List K) : List K := if f = .lam then Masked mask v else v

/-- the solver after a set -/
def upd [Mul K] (s : Solver K) (i0 : Nat) (f0 : Fld) (v0 : List K) : Solver K :=
  { s with val := fun j g => if j = i0 ∧ g = f0 then put (s.mask i0) f0 v0 else s.val j g }

theorem setLoop_ok [Mul K] (l : List (Nat × Fld × List K)) (s : Solver K) (h : ∀ a ∈ l, a.1 ≤ s.N ∧ a.2.2.length = s.dim a.1 a.2.1) :
    (setLoop l s).1 = true ∧ (setLoop l s).2.N = s.N ∧ (setLoop l s).2.dim = s.dim ∧ (setLoop l s).2.mask = s.mask ∧
      (∀ i f v, (∃ a ∈ l, a = (i, f, v)) → (∀ a ∈ l, a.1 = i → a.2.1 = f → a.2.2 = v) →
        (setLoop l s).2.val i f = put (s.mask i) f v) ∧
      ∀ i f, (∀ a ∈ l, ¬ (a.1 = i ∧ a.2.1 = f)) → (setLoop l s).2.val i f = s.val i f := by
  induction l generalizing s with
  | nil => exact ⟨rfl, rfl, rfl, rfl, fun i f v ⟨a, ha, _⟩ => absurd ha List.not_mem_nil, fun i f _ => rfl⟩
  | cons a l ih =>
    obtain ⟨i0, f0, v0⟩ := a
    obtain ⟨h1, h2⟩ := h _ List.mem_cons_self
    dsimp only at h1 h2
    have hset : set s i0 f0 v0 = some (upd s i0 f0 v0) := by
      unfold set
      rw [if_neg (by omega), if_neg (by simpa using h2)]
      rfl
    unfold setLoop
    rw [hset]
    dsimp only
    obtain ⟨k1, k2, k3, k4, k5, k6⟩ := ih (upd s i0 f0 v0)
      (fun a ha => h a (List.mem_cons_of_mem _ ha))
    refine ⟨k1, k2, k3, k4, ?_, ?_⟩
    · intro i f v hex hall
      by_cases hin : ∃ a ∈ l, a.1 = i ∧ a.2.1 = f
      · obtain ⟨a, ha, ha1, ha2⟩ := hin
        have ha3 := hall a (List.mem_cons_of_mem _ ha) ha1 ha2
        refine k5 i f v ⟨a, ha, ?_⟩ (fun b hb => hall b (List.mem_cons_of_mem _ hb))
        rw [← ha1, ← ha2, ← ha3]
      · rw [k6 i f (fun a ha hc => hin ⟨a, ha, hc⟩)]
        obtain ⟨a, ha, hae⟩ := hex
        rcases List.mem_cons.1 ha with h | h
        · rw [hae] at h
          cases h
          exact if_pos ⟨rfl, rfl⟩
        · exact absurd ⟨a, h, by rw [hae], by rw [hae]⟩ hin
    · intro i f hno
      rw [k6 i f (fun a ha => hno a (List.mem_cons_of_mem _ ha))]
      exact if_neg (fun hc => hno _ List.mem_cons_self ⟨hc.1.symm, hc.2.symm⟩)

theorem Stands.load_eq [Mul K] {d : Data K} {s : Solver K} {it : Iterate K} (h : Stands d s.N it) (hw : it.For s.N)
    (hd : ∀ f : Fld, ∀ i < f.count s.N, ∀ v, (it f)[i]? = some v → v.length = s.dim i f)
    (hv : ∀ f : Fld, ∀ i < f.count s.N, (s.val i f).length = s.dim i f) :
    (load d s).1 = true ∧ (∀ f : Fld, ∀ i < f.count s.N, ∀ v, (it f)[i]? = some v → (load d s).2.val i f = put (s.mask i) f v) ∧
      ∀ f : Fld, ∀ i, ¬ i < f.count s.N → (load d s).2.val i f = s.val i f := by
  have _ := hw
  have hl : ∀ a ∈ d.map (fun e => (stageNum e.1.2, e.1.1, e.2)), ∃ i v f, a = (i, f, v) ∧ i < f.count s.N ∧ (it f)[i]? = some v ∧ v ≠ [] := by
    intro a ha
    obtain ⟨e, he, rfl⟩ := List.mem_map.1 ha
    obtain ⟨i, v, hi, h1, h2, h3⟩ := (h.iff e).1 he
    refine ⟨i, v, e.1.1, ?_, hi, h1, h2⟩
    rw [h3]
    dsimp only
    rw [stageNum_stageStr]
  obtain ⟨k1, _, _, _, k5, k6⟩ := setLoop_ok (d.map fun e => (stageNum e.1.2, e.1.1, e.2)) s (by
    intro a ha
    obtain ⟨i, v, f, rfl, hi, h1, _⟩ := hl a ha
    exact ⟨Nat.lt_succ_iff.1 (lt_count_iff.1 hi).1, hd f i hi v h1⟩)
  refine ⟨k1, ?_, ?_⟩
  · intro f i hi v hfv
    by_cases hn : v = []
    · have hz : s.dim i f = 0 := by rw [← hd f i hi v hfv, hn]; rfl
      have : (load d s).2.val i f = s.val i f := k6 i f (by
        intro a ha hc
        obtain ⟨j, w, g, rfl, hj, h1, h2⟩ := hl a ha
        obtain ⟨rfl, rfl⟩ := hc
        rw [hfv] at h1
        cases h1
        exact h2 hn)
      rw [this, hn]
      have hnil : s.val i f = [] := List.length_eq_zero_iff.1 ((hv f i hi).trans hz)
      rw [hnil]
      unfold put Masked
      split <;> simp
    · refine k5 i f v ⟨_, List.mem_map.2 ⟨((f, stageStr (strLen s.N) i), v), (h.iff _).2 ⟨i, v, hi, hfv, hn, rfl⟩, rfl⟩, ?_⟩ ?_
      · dsimp only
        rw [stageNum_stageStr]
      · intro a ha ha1 ha2
        obtain ⟨j, w, g, rfl, hj, h1, h2⟩ := hl a ha
        dsimp only at ha1 ha2 ⊢
        rw [ha1, ha2, hfv] at h1
        cases h1
        rfl
  · intro f i hi
    refine k6 i f ?_
    intro a ha hc
    obtain ⟨j, w, g, rfl, hj, h1, h2⟩ := hl a ha
    obtain ⟨rfl, rfl⟩ := hc
    exact hi hj

theorem filterMap_range_getElem? (g : Nat → List K) (p : Nat → Prop) [DecidablePred p] (n m : Nat) (hm : m ≤ n) (hp : ∀ i < n, p i ↔ i < m) :
    (List.range n).filterMap (fun i => if p i then some (g i) else none) = (List.range m).map g := by
  induction n generalizing m with
  | zero => have : m = 0 := by omega
            subst this; rfl
  | succ n ih =>
    rw [List.range_succ, List.filterMap_append]
    by_cases h : n < m
    · have : m = n + 1 := by omega
      subst this
      rw [ih n (le_refl _) (fun i hi => (hp i (by omega)).trans (by omega)), List.range_succ, List.map_append]
      congr 1
      simp [(hp n (by omega)).2 (by omega)]
    · rw [ih m (by omega) (fun i hi => hp i (by omega))]
      have : ¬ p n := fun hc => h ((hp n (by omega)).1 hc)
      simp [this]

theorem getIterate_eq (s : Solver K) (f : Fld) : getIterate s f = (List.range (f.count s.N)).map fun i => s.val i f := by
  unfold getIterate
  refine filterMap_range_getElem? (fun i => s.val i f) (fun n => n < s.N ∨ f.atEnd = true) (s.N + 1) (f.count s.N) ?_ ?_
  · unfold Fld.count; split <;> omega
  · intro i hi
    rw [lt_count_iff]
    exact ⟨fun h => ⟨hi, h⟩, fun h => h.2⟩

theorem getIterate_holds (s : Solver K) : s.Holds (getIterate s) := by
  refine ⟨fun f => ?_, fun f i hi => ?_⟩
  · rw [getIterate_eq]; simp
  · rw [getIterate_eq]; simp [hi]

theorem setIterate_eq [Mul K] {s : Solver K} {it : Iterate K} (hw : it.For s.N)
    (hd : ∀ f : Fld, ∀ i < f.count s.N, ∀ v, (it f)[i]? = some v → v.length = s.dim i f) :
    (setIterate it s).1 = true ∧ (∀ f : Fld, ∀ i < f.count s.N, ∀ v, (it f)[i]? = some v → (setIterate it s).2.val i f = put (s.mask i) f v) ∧
      ∀ f : Fld, ∀ i, ¬ i < f.count s.N → (setIterate it s).2.val i f = s.val i f := by
  have hl : ∀ a, a ∈ (fields.flatMap fun f => (it f).zipIdx.map fun vn => (vn.2, f, vn.1)) ↔ (it a.2.1)[a.1]? = some a.2.2 := by
    intro a
    simp only [List.mem_flatMap, List.mem_map]
    constructor
    · rintro ⟨f, _, vn, hvn, rfl⟩
      exact List.mem_zipIdx_iff_getElem?.1 hvn
    · intro h
      exact ⟨a.2.1, mem_fields _, (a.2.2, a.1), List.mem_zipIdx_iff_getElem?.2 h, rfl⟩
  have hlt : ∀ (f : Fld) (i : Nat) (v : List K), (it f)[i]? = some v → i < f.count s.N := by
    intro f i v h
    rw [← hw f]
    exact (List.getElem?_eq_some_iff.1 h).1
  obtain ⟨k1, _, _, _, k5, k6⟩ := setLoop_ok (fields.flatMap fun f => (it f).zipIdx.map fun vn => (vn.2, f, vn.1)) s (by
    intro a ha
    have := (hl a).1 ha
    have hi := hlt _ _ _ this
    exact ⟨Nat.lt_succ_iff.1 (lt_count_iff.1 hi).1, hd _ _ hi _ this⟩)
  refine ⟨k1, ?_, ?_⟩
  · intro f i _ v hv
    refine k5 i f v ⟨(i, f, v), (hl _).2 hv, rfl⟩ ?_
    intro a ha h1 h2
    have := (hl a).1 ha
    rw [h1, h2, hv] at this
    cases this
    rfl
  · intro f i hi
    refine k6 i f fun a ha hc => ?_
    have := hlt _ _ _ ((hl a).1 ha)
    rw [hc.1, hc.2] at this
    exact hi this

end Acados.IterFile
