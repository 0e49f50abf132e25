import Verif.Lemmas.CasadiNlpFeas

/-! Lemmas for C97: multipliers by stage. -/

namespace Acados.CasadiNlp

section
variable {K : Type*}

def rowC (d : Stage K) (i r : ℕ) : List Con :=
  if r ∈ softList d then [.hl i r ((softList d).idxOf r)] else [.h i r]

def rowsAt (o : Ocp K) (i : ℕ) : List Con :=
  lins o i ++ (List.range (conData o i).nh).flatMap (rowC (conData o i) i) ++ phis o i

theorem flatMap_sublist {α β : Type*} {f g : α → List β} (l : List α)
    (h : ∀ a, (f a).Sublist (g a)) : (l.flatMap f).Sublist (l.flatMap g) := by
  induction l with
  | nil => exact List.Sublist.refl _
  | cons a t ih => simp only [List.flatMap_cons]; exact (h a).append ih

theorem rows_sublist (o : Ocp K) (i : ℕ) : (rowsAt o i).Sublist (consAt o i) := by
  unfold rowsAt consAt hs
  refine List.Sublist.append (List.Sublist.append ?_ ?_) (List.Sublist.refl _)
  · exact List.sublist_append_right _ _
  · apply flatMap_sublist
    intro r
    unfold rowC hRow
    split
    · simp
    · exact List.Sublist.refl _

theorem rows_perm (o : Ocp K) (i : ℕ) : (rowsAt o i).Perm (hardAt o i ++ slAt o i) := by
  unfold rowsAt hardAt hardHs slAt
  have h : ∀ l : List ℕ, (l.flatMap (rowC (conData o i) i)).Perm
      (l.flatMap (hardRow (conData o i) i) ++ l.flatMap (slRow (conData o i) i)) := by
    intro l
    induction l with
    | nil => simp
    | cons r t ih =>
      simp only [List.flatMap_cons]
      unfold rowC hardRow slRow
      by_cases hs : r ∈ softList (conData o i)
      · simp only [hs, if_true, List.nil_append, List.singleton_append]
        exact (ih.cons _).trans List.perm_middle.symm
      · simp only [hs, if_false, List.nil_append, List.singleton_append, List.cons_append]
        exact ih.cons _
  have h1 := h (List.range (conData o i).nh)
  refine ((h1.append_left (lins o i)).append_right (phis o i)).trans ?_
  rw [← List.append_assoc, List.append_assoc (lins o i ++ _), List.append_assoc (lins o i ++ _)]
  exact List.Perm.append_left _ List.perm_append_comm

theorem mem_consAt {o : Ocp K} {i : ℕ} {c : Con} (h : c ∈ consAt o i) :
    (∃ j, c = .dyn i j) ∨ (∃ r, c = .lin i r) ∨ (∃ r, c = .h i r) ∨ (∃ r k, c = .hl i r k) ∨
    (∃ r k, c = .hu i r k) ∨ (∃ r, c = .phi i r) := by
  unfold consAt at h
  simp only [List.mem_append] at h
  rcases h with ((h | h) | h) | h
  · split at h
    · obtain ⟨j, _, rfl⟩ := List.mem_map.1 h
      exact Or.inl ⟨j, rfl⟩
    · cases h
  · obtain ⟨j, _, rfl⟩ := List.mem_map.1 h
    exact Or.inr (Or.inl ⟨j, rfl⟩)
  · obtain ⟨r, _, hr⟩ := List.mem_flatMap.1 h
    unfold hRow at hr
    split at hr
    · simp only [List.mem_cons, List.not_mem_nil, or_false] at hr
      rcases hr with rfl | rfl
      · exact Or.inr (Or.inr (Or.inr (Or.inl ⟨_, _, rfl⟩)))
      · exact Or.inr (Or.inr (Or.inr (Or.inr (Or.inl ⟨_, _, rfl⟩))))
    · simp only [List.mem_cons, List.not_mem_nil, or_false] at hr
      subst hr
      exact Or.inr (Or.inr (Or.inl ⟨_, rfl⟩))
  · obtain ⟨j, _, rfl⟩ := List.mem_map.1 h
    exact Or.inr (Or.inr (Or.inr (Or.inr (Or.inr ⟨j, rfl⟩))))

theorem mem_hs {o : Ocp K} {i : ℕ} {c : Con} (h : c ∈ hs o i) :
    (∃ r, c = .h i r) ∨ (∃ r k, c = .hl i r k) ∨ (∃ r k, c = .hu i r k) := by
  obtain ⟨r, _, hr⟩ := List.mem_flatMap.1 h
  unfold hRow at hr
  split at hr
  · simp only [List.mem_cons, List.not_mem_nil, or_false] at hr
    rcases hr with rfl | rfl
    · exact Or.inr (Or.inl ⟨_, _, rfl⟩)
    · exact Or.inr (Or.inr ⟨_, _, rfl⟩)
  · simp only [List.mem_cons, List.not_mem_nil, or_false] at hr
    exact Or.inl ⟨_, hr⟩

theorem nodup_consAt (o : Ocp K) (i : ℕ) : (consAt o i).Nodup := by
  have h1 : (if i < o.N then dyns o i else []).Nodup := by
    split
    · exact List.Nodup.map (fun a b h => by cases h; rfl) List.nodup_range
    · exact List.nodup_nil
  have h2 : (lins o i).Nodup := List.Nodup.map (fun a b h => by cases h; rfl) List.nodup_range
  have h4 : (phis o i).Nodup := List.Nodup.map (fun a b h => by cases h; rfl) List.nodup_range
  have h3 : (hs o i).Nodup := by
    unfold hs
    rw [List.nodup_flatMap]
    refine ⟨fun r _ => ?_, ?_⟩
    · unfold hRow; split <;> simp
    · refine (List.nodup_range (n := (conData o i).nh)).imp ?_
      intro a b hab c hc1 hc2
      unfold hRow at hc1 hc2
      split at hc1 <;> split at hc2 <;>
      · simp only [List.mem_cons, List.not_mem_nil, or_false] at hc1 hc2
        rcases hc1 with rfl | rfl <;> simp_all
  have md : ∀ c, c ∈ (if i < o.N then dyns o i else []) → ∃ j, c = Con.dyn i j := by
    intro s hs
    split at hs
    · obtain ⟨j, _, rfl⟩ := List.mem_map.1 hs
      exact ⟨j, rfl⟩
    · cases hs
  unfold consAt
  refine ((h1.append h2 ?_).append h3 ?_).append h4 ?_
  · intro c c1 c2
    obtain ⟨j, rfl⟩ := md c c1
    simp [lins] at c2
  · intro c c1 c2
    rcases List.mem_append.1 c1 with c1 | c1
    · obtain ⟨j, rfl⟩ := md c c1
      rcases mem_hs c2 with ⟨_, h⟩ | ⟨_, _, h⟩ | ⟨_, _, h⟩ <;> cases h
    · obtain ⟨j, _, rfl⟩ := List.mem_map.1 c1
      rcases mem_hs c2 with ⟨_, h⟩ | ⟨_, _, h⟩ | ⟨_, _, h⟩ <;> cases h
  · intro c c1 c2
    obtain ⟨j', _, rfl⟩ := List.mem_map.1 c2
    rcases List.mem_append.1 c1 with c1 | c1
    · rcases List.mem_append.1 c1 with c1 | c1
      · obtain ⟨j, h⟩ := md _ c1
        cases h
      · simp [lins] at c1
    · rcases mem_hs c1 with ⟨_, h⟩ | ⟨_, _, h⟩ | ⟨_, _, h⟩ <;> cases h

def gAll (o : Ocp K) : List Con := (List.range (o.N + 1)).flatMap (consAt o)
def wAll (o : Ocp K) : List Sym := (List.range (o.N + 1)).flatMap (symsAt o)

theorem nodup_g (o : Ocp K) : (gAll o).Nodup := by
  unfold gAll
  rw [List.nodup_flatMap]
  refine ⟨fun i _ => nodup_consAt o i, ?_⟩
  refine (List.nodup_range (n := o.N + 1)).imp ?_
  intro a b hab s h1 h2
  rcases mem_consAt h1 with ⟨j, rfl⟩ | ⟨j, rfl⟩ | ⟨j, rfl⟩ | ⟨j, k, rfl⟩ | ⟨j, k, rfl⟩ | ⟨j, rfl⟩ <;>
  · rcases mem_consAt h2 with ⟨j', h⟩ | ⟨j', h⟩ | ⟨j', h⟩ | ⟨j', k', h⟩ | ⟨j', k', h⟩ | ⟨j', h⟩ <;>
      cases h
    exact hab rfl

theorem rows_sublist_g (o : Ocp K) {i : ℕ} (hi : i ≤ o.N) : (rowsAt o i).Sublist (gAll o) := by
  refine (rows_sublist o i).trans ?_
  unfold gAll
  rw [List.flatMap_def]
  exact List.sublist_flatten_of_mem (List.mem_map.2 ⟨i, List.mem_range.2 (by omega), rfl⟩)

theorem keys_eq [Zero K] (o : Ocp K) {i : ℕ} (hi : i ≤ o.N) :
    (cons o).lamGnl i ++ (cons o).lamGnlSl i = (hardAt o i ++ slAt o i).map (gAll o).idxOf := by
  have hc := cinv o
  exact ((hc.doneN i (by omega)).concat (hc.doneL i (by omega))).eq_idxOf (nodup_g o)

theorem sorted_at [Zero K] (o : Ocp K) {i : ℕ} (hi : i ≤ o.N) :
    At (hardAt o i ++ slAt o i) (argsort ((cons o).lamGnl i ++ (cons o).lamGnlSl i))
      (rowsAt o i) := by
  rw [keys_eq o hi]
  exact argsort_at _ _ _ (rows_perm o i) (sublist_idxOf (nodup_g o) (rows_sublist_g o hi))

theorem ranks_at [Zero K] (o : Ocp K) {i : ℕ} (hi : i ≤ o.N) :
    At (rowsAt o i) (argsort (argsort ((cons o).lamGnl i ++ (cons o).lamGnlSl i)))
      (hardAt o i ++ slAt o i) := by
  rw [keys_eq o hi]
  exact argsort_inv _ _ _ (rows_perm o i) (sublist_idxOf (nodup_g o) (rows_sublist_g o hi))

theorem At.split {α : Type*} {l : List α} {idx : List ℕ} {a b : List α} (h : At l idx (a ++ b)) :
    At l (idx.take a.length) a ∧ At l (idx.drop a.length) b := by
  unfold At at *
  constructor
  · rw [List.map_take, h, List.map_append, List.take_append_of_le_length (by simp)]
    simp
  · rw [List.map_drop, h, List.map_append]
    rw [List.drop_append_of_le_length (by simp)]
    simp

variable [Field K] [LinearOrder K]

/-- Multiplier of the lower bound of a row. -/
def lowMult (μg : Con → K) : Con → K
  | .hl i r k => -μg (.hl i r k)
  | c => max 0 (-μg c)

/-- Multiplier of the upper bound of a row. -/
def upMult (μg : Con → K) : Con → K
  | .hl i r k => μg (.hu i r k)
  | c => max 0 (μg c)

omit [Field K] [LinearOrder K] in
theorem mem_hard {o : Ocp K} {i : ℕ} {c : Con} (h : c ∈ hardAt o i) :
    (∃ r, c = .lin i r) ∨ (∃ r, c = .h i r) ∨ (∃ r, c = .phi i r) := by
  unfold hardAt hardHs at h
  simp only [List.mem_append] at h
  rcases h with (h | h) | h
  · obtain ⟨j, _, rfl⟩ := List.mem_map.1 h
    exact Or.inl ⟨j, rfl⟩
  · obtain ⟨r, _, hr⟩ := List.mem_flatMap.1 h
    unfold hardRow at hr
    split at hr
    · cases hr
    · simp only [List.mem_cons, List.not_mem_nil, or_false] at hr
      exact Or.inr (Or.inl ⟨_, hr⟩)
  · obtain ⟨j, _, rfl⟩ := List.mem_map.1 h
    exact Or.inr (Or.inr ⟨j, rfl⟩)

theorem low_vals (o : Ocp K) (i : ℕ) (μg : Con → K) :
    negPart ((hardAt o i).map μg) ++ negate ((slAt o i).map μg) =
      (hardAt o i ++ slAt o i).map (lowMult μg) := by
  rw [List.map_append]
  congr 1
  · unfold negPart
    rw [List.map_map]
    apply List.map_congr_left
    intro c hc
    rcases mem_hard hc with ⟨r, rfl⟩ | ⟨r, rfl⟩ | ⟨r, rfl⟩ <;> rfl
  · unfold negate slAt
    rw [List.map_map]
    apply List.map_congr_left
    intro c hc
    obtain ⟨r, _, hr⟩ := List.mem_flatMap.1 hc
    unfold slRow at hr
    split at hr
    · simp only [List.mem_cons, List.not_mem_nil, or_false] at hr
      subst hr
      rfl
    · cases hr

omit [Field K] [LinearOrder K] in
theorem su_vals (o : Ocp K) (i : ℕ) (μg F : Con → K) (hF : ∀ i r k, F (.hl i r k) = μg (.hu i r k)) :
    (suAt o i).map μg = (slAt o i).map F := by
  unfold suAt slAt
  rw [List.map_flatMap, List.map_flatMap]
  congr 1
  funext r
  unfold suRow slRow
  split
  · simp [hF]
  · rfl

theorem up_vals (o : Ocp K) (i : ℕ) (μg : Con → K) :
    posPart ((hardAt o i).map μg) ++ (suAt o i).map μg =
      (hardAt o i ++ slAt o i).map (upMult μg) := by
  rw [List.map_append]
  congr 1
  · unfold posPart
    rw [List.map_map]
    apply List.map_congr_left
    intro c hc
    rcases mem_hard hc with ⟨r, rfl⟩ | ⟨r, rfl⟩ | ⟨r, rfl⟩ <;> rfl
  · exact su_vals o i μg _ (fun _ _ _ => rfl)

omit [Field K] [LinearOrder K] in
theorem rows_hard (o : Ocp K) (i : ℕ) (h : suAt o i = []) :
    rowsAt o i = hardAt o i ∧ slAt o i = [] := by
  unfold suAt at h
  rw [List.flatMap_eq_nil_iff] at h
  have hs : ∀ r ∈ List.range (conData o i).nh, r ∉ softList (conData o i) := by
    intro r hr hs
    have := h r hr
    simp [suRow, hs] at this
  constructor
  · unfold rowsAt hardAt hardHs
    congr 2
    apply List.flatMap_congr
    intro r hr
    simp [rowC, hardRow, hs r hr]
  · unfold slAt
    rw [List.flatMap_eq_nil_iff]
    intro r hr
    simp [slRow, hs r hr]

def busN (o : Ocp K) (i : ℕ) : List Sym := if i < o.N then bus o i else []

/-- What `_get_lam` returns. -/
def lamList (o : Ocp K) (μ : Sym → K) (μg : Con → K) (i : ℕ) : List K :=
  (busN o i).map (fun s => max 0 (-μ s)) ++ (bxs o i).map (fun s => max 0 (-μ s)) ++
    (rowsAt o i).map (lowMult μg) ++
  ((busN o i).map (fun s => max 0 (μ s)) ++ (bxs o i).map (fun s => max 0 (μ s)) ++
    (rowsAt o i).map (upMult μg)) ++
  (sls o i).map (fun s => -μ s) ++ (sus o i).map (fun s => -μ s)

theorem getLam_eq (o : Ocp K) (ho : Proper o) (μ : Sym → K) (μg : Con → K) {i : ℕ} (hi : i ≤ o.N) :
    getLam o ⟨vars o, cons o⟩ ((wAll o).map μ) ((gAll o).map μg) i =
      some (lamList o μ μg i) := by
  have hv := vinv o ho
  have hc := cinv o
  have h1 : ((vars o).lamBx[i]?).bind (pick ((wAll o).map μ)) = some ((bxs o i).map μ) :=
    pickAt_at μ hv.p.bx (by omega)
  have h2 : i < o.N →
      ((vars o).lamBu[i]?).bind (pick ((wAll o).map μ)) = some ((bus o i).map μ) := fun h =>
    pickAt_at μ hv.p.bu (by omega)
  have h3 : ((vars o).lamSl[i]?).bind (pick ((wAll o).map μ)) = some ((sls o i).map μ) :=
    pickAt_at μ hv.p.lsl (by omega)
  have h4 : ((vars o).lamSu[i]?).bind (pick ((wAll o).map μ)) = some ((sus o i).map μ) :=
    pickAt_at μ hv.p.lsu (by omega)
  have h5 : pick ((gAll o).map μg) ((cons o).lamGnl i) = some ((hardAt o i).map μg) :=
    pick_at ((hc.doneN i (by omega)).map μg)
  have h6 : pick ((gAll o).map μg) ((cons o).lamGnlSl i) = some ((slAt o i).map μg) :=
    pick_at ((hc.doneL i (by omega)).map μg)
  have h7 : pick ((gAll o).map μg) ((cons o).lamGnlSu i) = some ((suAt o i).map μg) :=
    pick_at ((hc.doneU i (by omega)).map μg)
  have h8 := pick_at ((sorted_at o hi).map (lowMult μg))
  have h9 := pick_at ((sorted_at o hi).map (upMult μg))
  rw [← low_vals] at h8
  rw [← up_vals] at h9
  have hnil : (cons o).lamGnlSu i = [] ↔ suAt o i = [] := by
    have := (hc.doneU i (by omega)).length
    constructor
    · intro h; rw [h] at this; exact List.length_eq_zero_iff.1 this.symm
    · intro h; rw [h] at this; exact List.length_eq_zero_iff.1 this
  have hbN : busN o i = if i < o.N then bus o i else [] := rfl
  unfold getLam
  by_cases hiN : i < o.N
  all_goals
  simp only [hiN, if_true, if_false] at hbN ⊢
  simp only [h1, h2, hiN, h3, h4, h5, Option.bind_eq_bind, Option.bind_some, Option.pure_def]
  by_cases hsu : suAt o i = []
  · have hs' : ¬ ((cons o).lamGnlSu i ≠ []) := fun h => h (hnil.2 hsu)
    rw [if_neg hs']
    obtain ⟨e1, e2⟩ := rows_hard o i hsu
    have l1 := low_vals o i μg
    have l2 := up_vals o i μg
    rw [e2] at l1 l2
    rw [hsu] at l2
    simp only [List.map_nil, negate, List.append_nil] at l1 l2
    unfold lamList
    rw [e1, ← l1, ← l2, hbN]
    simp only [negPart, posPart, negate, List.map_map]
    rfl
  · have hs' : (cons o).lamGnlSu i ≠ [] := fun h => hsu (hnil.1 h)
    rw [if_pos hs']
    simp only [h6, h7, h8, h9, Option.bind_some]
    unfold lamList
    rw [hbN]
    simp only [negPart, posPart, negate, List.map_map]
    rfl

/-! ### Setting -/

omit [Field K] [LinearOrder K] in
theorem slice_mid (a b c : List K) {l : List K} {lo hi : ℕ} (hl : l = a ++ (b ++ c))
    (h1 : lo = a.length) (h2 : hi = a.length + b.length) : slice l lo hi = b := by
  subst hl h1 h2
  unfold slice
  rw [← List.append_assoc, ← List.length_append, List.take_left, List.drop_left]

omit [LinearOrder K] in
theorem minus_map {α : Type*} (l : List α) (f g : α → K) :
    minus (l.map f) (l.map g) = some (l.map (fun s => f s - g s)) := by
  match l with
  | [] => simp [minus]
  | [a] => simp [minus]
  | a :: b :: t => simp [minus, List.zipWith_map]

theorem pos_neg [IsStrictOrderedRing K] (a : K) : max 0 a - max 0 (-a) = a := by
  rcases le_total 0 a with h | h
  · rw [max_eq_right h, max_eq_left (by linarith)]; ring
  · rw [max_eq_left h, max_eq_right (by linarith)]; ring

omit [Field K] [LinearOrder K] in
theorem rows_length (o : Ocp K) (i : ℕ) :
    (rowsAt o i).length = conNg o i + (conData o i).nh + (conData o i).nphi := by
  unfold rowsAt lins phis
  have : ∀ l : List ℕ, (l.flatMap (rowC (conData o i) i)).length = l.length := by
    intro l
    induction l with
    | nil => rfl
    | cons r t ih =>
      simp only [List.flatMap_cons, List.length_append, ih, List.length_cons]
      unfold rowC
      split <;> simp <;> omega
  simp [this, Nat.add_assoc]

omit [Field K] [LinearOrder K] in
theorem lamDims_eq (o : Ocp K) (hN : 0 < o.N) (i : ℕ) (hi : i ≤ o.N) :
    lamDims o i = ((bxs o i).length, (busN o i).length, (rowsAt o i).length, (sls o i).length) := by
  rw [rows_length, conData_eq o hN]
  unfold lamDims bxs busN bus sls varData conNg Ocp.at
  by_cases h0 : i = 0
  · subst h0; simp [hN]
  · by_cases h : i < o.N
    · simp [h0, h]
    · simp [h0, h]

/-- Setting the multipliers of one stage. -/
theorem setLam_eq [IsStrictOrderedRing K] (o : Ocp K) (ho : Proper o) (hN : 0 < o.N)
    (μ ν : Sym → K) (μg νg : Con → K) {i : ℕ} (hi : i ≤ o.N) :
    setLam o ⟨vars o, cons o⟩ ((wAll o).map ν, (gAll o).map νg) i (lamList o μ μg i) =
      some ((wAll o).map (fun s => if s ∈ bxs o i ++ busN o i ++ sls o i ++ sus o i then μ s else ν s),
        (gAll o).map (fun c => if c ∈ hardAt o i ++ slAt o i ++ suAt o i then μg c else νg c)) := by
  have hv := vinv o ho
  have hc := cinv o
  have hdim := lamDims_eq o hN i hi
  have hsus : (sus o i).length = (sls o i).length := by simp [sus, sls]
  set A1 := (busN o i).map (fun s => max 0 (-μ s)) with hA1
  set A2 := (bxs o i).map (fun s => max 0 (-μ s)) with hA2
  set A3 := (rowsAt o i).map (lowMult μg) with hA3
  set B1 := (busN o i).map (fun s => max 0 (μ s)) with hB1
  set B2 := (bxs o i).map (fun s => max 0 (μ s)) with hB2
  set B3 := (rowsAt o i).map (upMult μg) with hB3
  set S := (sls o i).map (fun s => -μ s) with hS
  set U := (sus o i).map (fun s => -μ s) with hU
  have l1 : A1.length = (busN o i).length := by simp [hA1]
  have l2 : A2.length = (bxs o i).length := by simp [hA2]
  have l3 : A3.length = (rowsAt o i).length := by simp [hA3]
  have l4 : B1.length = (busN o i).length := by simp [hB1]
  have l5 : B2.length = (bxs o i).length := by simp [hB2]
  have l6 : B3.length = (rowsAt o i).length := by simp [hB3]
  have l7 : S.length = (sls o i).length := by simp [hS]
  have l8 : U.length = (sls o i).length := by simp [hU, hsus]
  have hL : lamList o μ μg i = A1 ++ A2 ++ A3 ++ (B1 ++ B2 ++ B3) ++ S ++ U := rfl
  rw [hL]
  generalize hval : A1 ++ A2 ++ A3 ++ (B1 ++ B2 ++ B3) ++ S ++ U = val
  have s1 : slice val 0 (busN o i).length = A1 :=
    slice_mid [] A1 (A2 ++ A3 ++ (B1 ++ B2 ++ B3) ++ S ++ U) (by simp [← hval]) rfl (by simp [l1])
  have s2 : slice val (busN o i).length ((busN o i).length + (bxs o i).length) = A2 :=
    slice_mid A1 A2 (A3 ++ (B1 ++ B2 ++ B3) ++ S ++ U) (by simp [← hval]) (by simp [l1])
      (by simp [l1, l2])
  have s3 : slice val ((busN o i).length + (bxs o i).length)
      ((busN o i).length + (bxs o i).length + (rowsAt o i).length) = A3 :=
    slice_mid (A1 ++ A2) A3 ((B1 ++ B2 ++ B3) ++ S ++ U) (by simp [← hval]) (by simp [l1, l2])
      (by simp [l1, l2, l3])
  have s4 : slice val ((bxs o i).length + (busN o i).length + (rowsAt o i).length)
      ((bxs o i).length + (busN o i).length + (rowsAt o i).length + (busN o i).length) = B1 :=
    slice_mid (A1 ++ A2 ++ A3) B1 (B2 ++ B3 ++ S ++ U) (by simp [← hval])
      (by simp [l1, l2, l3]; omega) (by simp [l1, l2, l3, l4]; omega)
  have s5 : slice val ((bxs o i).length + (busN o i).length + (rowsAt o i).length +
        (busN o i).length)
      ((bxs o i).length + (busN o i).length + (rowsAt o i).length + (busN o i).length +
        (bxs o i).length) = B2 :=
    slice_mid (A1 ++ A2 ++ A3 ++ B1) B2 (B3 ++ S ++ U) (by simp [← hval])
      (by simp [l1, l2, l3, l4]; omega) (by simp [l1, l2, l3, l4, l5]; omega)
  have s6 : slice val ((bxs o i).length + (busN o i).length + (rowsAt o i).length +
        (busN o i).length + (bxs o i).length)
      ((bxs o i).length + (busN o i).length + (rowsAt o i).length + (busN o i).length +
        (bxs o i).length + (rowsAt o i).length) = B3 :=
    slice_mid (A1 ++ A2 ++ A3 ++ B1 ++ B2) B3 (S ++ U) (by simp [← hval])
      (by simp [l1, l2, l3, l4, l5]; omega) (by simp [l1, l2, l3, l4, l5, l6]; omega)
  have s7 : slice val (2 * ((bxs o i).length + (busN o i).length + (rowsAt o i).length))
      (2 * ((bxs o i).length + (busN o i).length + (rowsAt o i).length) + (sls o i).length) = S :=
    slice_mid (A1 ++ A2 ++ A3 ++ B1 ++ B2 ++ B3) S U (by simp [← hval])
      (by simp [l1, l2, l3, l4, l5, l6]; omega) (by simp [l1, l2, l3, l4, l5, l6, l7]; omega)
  have s8 : slice val (2 * ((bxs o i).length + (busN o i).length + (rowsAt o i).length) +
        (sls o i).length)
      (2 * ((bxs o i).length + (busN o i).length + (rowsAt o i).length) + 2 * (sls o i).length) =
      U :=
    slice_mid (A1 ++ A2 ++ A3 ++ B1 ++ B2 ++ B3 ++ S) U [] (by simp [← hval])
      (by simp [l1, l2, l3, l4, l5, l6, l7]; omega)
      (by simp [l1, l2, l3, l4, l5, l6, l7, l8]; omega)
  have hlen : ((cons o).lamGnl i).length = (hardAt o i).length := (hc.doneN i (by omega)).length
  have hr := ranks_at o hi
  have p1 := pick_at ((hr.split).1.map (lowMult μg))
  have p2 := pick_at ((hr.split).2.map (lowMult μg))
  have p3 := pick_at ((hr.split).1.map (upMult μg))
  have p4 := pick_at ((hr.split).2.map (upMult μg))
  rw [← hA3] at p1 p2
  rw [← hB3] at p3 p4
  unfold setLam
  simp only [hdim, s1, s2, s3, s4, s5, s6, s7, s8, hlen, p1, p2, p3, p4, Option.bind_eq_bind,
    Option.bind_some, Option.pure_def]
  have d1 : minus B2 A2 = some ((bxs o i).map μ) := by
    rw [hB2, hA2, minus_map]
    simp only [pos_neg]
  have d2 : minus B1 A1 = some ((busN o i).map μ) := by
    rw [hB1, hA1, minus_map]
    simp only [pos_neg]
  have d3 : minus ((hardAt o i).map (upMult μg)) ((hardAt o i).map (lowMult μg)) =
      some ((hardAt o i).map μg) := by
    rw [minus_map]
    congr 1
    apply List.map_congr_left
    intro c hc'
    rcases mem_hard hc' with ⟨r, rfl⟩ | ⟨r, rfl⟩ | ⟨r, rfl⟩ <;> exact pos_neg _
  have nw : (wAll o).Nodup := nodup_w o _
  have ng := nodup_g o
  have a1 : ∀ ν : Sym → K, assignAt ((wAll o).map ν) (vars o).lamBx i ((bxs o i).map μ) =
      some ((wAll o).map (fun s => if s ∈ bxs o i then μ s else ν s)) := fun ν =>
    assignAt_at nw μ ν hv.p.bx (by omega)
  have a2 : i < o.N → ∀ ν : Sym → K, assignAt ((wAll o).map ν) (vars o).lamBu i
        ((busN o i).map μ) =
      some ((wAll o).map (fun s => if s ∈ busN o i then μ s else ν s)) := by
    intro h ν
    have hb : busN o i = bus o i := by simp [busN, h]
    rw [hb]
    exact assignAt_at nw μ ν hv.p.bu (by omega)
  have a3 : ∀ ν : Sym → K, assignAt ((wAll o).map ν) (vars o).lamSl i (negate S) =
      some ((wAll o).map (fun s => if s ∈ sls o i then μ s else ν s)) := by
    intro ν
    have : negate S = (sls o i).map μ := by
      rw [hS]; simp [negate, Function.comp_def]
    rw [this]
    exact assignAt_at nw μ ν hv.p.lsl (by omega)
  have a4 : ∀ ν : Sym → K, assignAt ((wAll o).map ν) (vars o).lamSu i (negate U) =
      some ((wAll o).map (fun s => if s ∈ sus o i then μ s else ν s)) := by
    intro ν
    have : negate U = (sus o i).map μ := by
      rw [hU]; simp [negate, Function.comp_def]
    rw [this]
    exact assignAt_at nw μ ν hv.p.lsu (by omega)
  have b1 : ∀ ν : Con → K, assign ((gAll o).map ν) ((cons o).lamGnl i) ((hardAt o i).map μg) =
      some ((gAll o).map (fun s => if s ∈ hardAt o i then μg s else ν s)) := fun ν =>
    assign_at ng μg ν (hc.doneN i (by omega))
  have b2 : ∀ ν : Con → K, assign ((gAll o).map ν) ((cons o).lamGnlSl i)
        (negate ((slAt o i).map (lowMult μg))) =
      some ((gAll o).map (fun s => if s ∈ slAt o i then μg s else ν s)) := by
    intro ν
    have : negate ((slAt o i).map (lowMult μg)) = (slAt o i).map μg := by
      unfold negate
      rw [List.map_map]
      apply List.map_congr_left
      intro c hc'
      obtain ⟨r, _, hr'⟩ := List.mem_flatMap.1 hc'
      unfold slRow at hr'
      split at hr'
      · simp only [List.mem_cons, List.not_mem_nil, or_false] at hr'
        subst hr'
        simp [lowMult]
      · cases hr'
    rw [this]
    exact assign_at ng μg ν (hc.doneL i (by omega))
  have b3 : ∀ ν : Con → K, assign ((gAll o).map ν) ((cons o).lamGnlSu i)
        ((slAt o i).map (upMult μg)) =
      some ((gAll o).map (fun s => if s ∈ suAt o i then μg s else ν s)) := by
    intro ν
    rw [← su_vals o i μg _ (fun _ _ _ => rfl)]
    exact assign_at ng μg ν (hc.doneU i (by omega))
  by_cases hiN : i < o.N
  all_goals
  simp only [hiN, if_true, if_false]
  simp only [d1, d2, a1, a2, hiN, d3, b1, b2, b3, a3, a4, Option.bind_some]
  congr 2
  · apply List.map_congr_left
    intro s _
    simp only [List.mem_append]
    by_cases q1 : s ∈ sus o i
    · simp [q1]
    · by_cases q2 : s ∈ sls o i
      · simp [q1, q2]
      · by_cases q3 : s ∈ busN o i
        · simp [q1, q2, q3]
          try (intro _; simp [busN, hiN] at q3)
        · simp [q1, q2, q3]
  · apply List.map_congr_left
    intro s _
    simp only [List.mem_append]
    by_cases q1 : s ∈ suAt o i
    · simp [q1]
    · by_cases q2 : s ∈ slAt o i
      · simp [q1, q2]
      · simp [q1, q2]

end

end Acados.CasadiNlp
