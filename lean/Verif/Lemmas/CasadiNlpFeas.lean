import Verif.Lemmas.CasadiNlpBuild

/-! Lemmas for C97: feasible points and cost. -/

namespace Acados.CasadiNlp

section
variable {K : Type*} [Field K] [LinearOrder K]

theorem aw_append {a a' : List K} {l l' u u' : List (Option K)} (hl : l.length = a.length)
    (hu : u.length = a.length) :
    AllWithin (a ++ a') (l ++ l') (u ++ u') ↔ AllWithin a l u ∧ AllWithin a' l' u' := by
  unfold AllWithin
  constructor
  · rintro ⟨h1, h2, h3⟩
    simp only [List.length_append] at h1 h2
    refine ⟨⟨hl, hu, ?_⟩, ⟨by omega, by omega, ?_⟩⟩
    · intro p x lo up hx hlo hup
      have hp : p < a.length := by
        rcases Nat.lt_or_ge p a.length with h | h
        · exact h
        · rw [List.getElem?_eq_none h] at hx; cases hx
      refine h3 p x lo up ?_ ?_ ?_
      · rw [List.getElem?_append_left hp, hx]
      · rw [List.getElem?_append_left (by omega), hlo]
      · rw [List.getElem?_append_left (by omega), hup]
    · intro p x lo up hx hlo hup
      refine h3 (a.length + p) x lo up ?_ ?_ ?_
      · rw [List.getElem?_append_right (by omega)]
        simpa using hx
      · rw [List.getElem?_append_right (by omega), hl]
        simpa using hlo
      · rw [List.getElem?_append_right (by omega), hu]
        simpa using hup
  · rintro ⟨⟨_, _, h1⟩, ⟨h2, h3, h4⟩⟩
    refine ⟨by simp [hl, h2], by simp [hu, h3], ?_⟩
    intro p x lo up hx hlo hup
    rcases Nat.lt_or_ge p a.length with hp | hp
    · rw [List.getElem?_append_left hp] at hx
      rw [List.getElem?_append_left (by omega)] at hlo hup
      exact h1 p x lo up hx hlo hup
    · rw [List.getElem?_append_right hp] at hx
      rw [List.getElem?_append_right (by omega)] at hlo hup
      rw [hl] at hlo
      rw [hu] at hup
      exact h4 _ x lo up hx hlo hup

omit [Field K] in
theorem aw_nil : AllWithin ([] : List K) [] [] := by
  refine ⟨rfl, rfl, ?_⟩
  intro p a l u h
  simp at h

omit [Field K] in
theorem aw_map (n : ℕ) (c : ℕ → K) (L U : ℕ → Option K) :
    AllWithin ((List.range n).map c) ((List.range n).map L) ((List.range n).map U) ↔
      ∀ r, r < n → Within (L r) (U r) (c r) := by
  unfold AllWithin
  constructor
  · rintro ⟨_, _, h⟩ r hr
    exact h r (c r) (L r) (U r) (by simp [hr]) (by simp [hr]) (by simp [hr])
  · intro h
    refine ⟨by simp, by simp, ?_⟩
    intro p a l u h1 h2 h3
    have hp : p < n := by
      rcases Nat.lt_or_ge p n with h' | h'
      · exact h'
      · rw [List.getElem?_eq_none (by simpa using h')] at h1; cases h1
    simp [hp] at h1 h2 h3
    rw [← h1, ← h2, ← h3]
    exact h p hp

theorem aw_flatMap {α : Type*} (l : List α) (c : α → List K) (L U : α → List (Option K))
    (hL : ∀ i ∈ l, (L i).length = (c i).length) (hU : ∀ i ∈ l, (U i).length = (c i).length) :
    AllWithin (l.flatMap c) (l.flatMap L) (l.flatMap U) ↔
      ∀ i ∈ l, AllWithin (c i) (L i) (U i) := by
  induction l with
  | nil => simp [aw_nil]
  | cons i t ih =>
    simp only [List.flatMap_cons]
    rw [aw_append (hL i (by simp)) (hU i (by simp)),
      ih (fun j hj => hL j (by simp [hj])) (fun j hj => hU j (by simp [hj]))]
    simp

/-! ### Bounds written through index lists -/

def look (idx : ℕ → ℕ) (b : ℕ → K) : ℕ → ℕ → Option K
  | 0, _ => none
  | nb + 1, j => if idx nb = j then some (b nb) else look idx b nb j

omit [Field K] [LinearOrder K] in
theorem scatter_eq (n nb : ℕ) (idx : ℕ → ℕ) (b : ℕ → K) :
    scatter n nb idx b = (List.range n).map (look idx b nb) := by
  unfold scatter
  induction nb with
  | zero =>
    apply List.ext_getElem?
    intro p
    by_cases hp : p < n
    · simp [hp, look]
    · rw [List.getElem?_eq_none (by simpa using hp), List.getElem?_eq_none (by simpa using hp)]
  | succ nb ih =>
    rw [List.range_succ, List.foldl_append, ih]
    simp only [List.foldl_cons, List.foldl_nil]
    apply List.ext_getElem?
    intro p
    rw [List.getElem?_set]
    by_cases hp : p < n
    · by_cases h : idx nb = p
      · simp [h, hp, look]
      · simp [h, hp, look]
    · rw [List.getElem?_eq_none (l := (List.range n).map (look idx b (nb + 1))) (by simpa using hp),
        List.getElem?_eq_none (l := (List.range n).map (look idx b nb)) (by simpa using hp)]
      by_cases h : idx nb = p
      · simp [h, hp]
      · simp [h]

omit [Field K] [LinearOrder K] in
theorem look_some {idx : ℕ → ℕ} {b : ℕ → K} {nb j : ℕ} {a : K} (h : look idx b nb j = some a) :
    ∃ k, k < nb ∧ idx k = j ∧ a = b k := by
  induction nb with
  | zero => simp [look] at h
  | succ nb ih =>
    simp only [look] at h
    split at h
    · rename_i he
      exact ⟨nb, by omega, he, (Option.some.inj h).symm⟩
    · obtain ⟨k, h1, h2, h3⟩ := ih h
      exact ⟨k, by omega, h2, h3⟩

omit [Field K] [LinearOrder K] in
theorem look_at {idx : ℕ → ℕ} {b : ℕ → K} {nb k : ℕ} (hk : k < nb)
    (hinj : ∀ k, k < nb → ∀ k', k' < nb → idx k = idx k' → k = k') :
    look idx b nb (idx k) = some (b k) := by
  induction nb with
  | zero => omega
  | succ nb ih =>
    simp only [look]
    by_cases h : idx nb = idx k
    · rw [if_pos h, hinj nb (by omega) k hk h]
    · rw [if_neg h]
      have : k ≠ nb := by rintro rfl; exact h rfl
      exact ih (by omega) (fun a ha a' ha' => hinj a (by omega) a' (by omega))

omit [Field K] in
theorem aw_scatter (n nb : ℕ) (idx : ℕ → ℕ) (lo up c : ℕ → K) (hb : ∀ k, k < nb → idx k < n)
    (hinj : ∀ k, k < nb → ∀ k', k' < nb → idx k = idx k' → k = k') :
    AllWithin ((List.range n).map c) (scatter n nb idx lo) (scatter n nb idx up) ↔
      ∀ k, k < nb → lo k ≤ c (idx k) ∧ c (idx k) ≤ up k := by
  rw [scatter_eq, scatter_eq, aw_map]
  constructor
  · intro h k hk
    have := h (idx k) (hb k hk)
    rw [look_at hk hinj, look_at hk hinj] at this
    exact ⟨this.1 _ rfl, this.2 _ rfl⟩
  · intro h j _
    refine ⟨fun a ha => ?_, fun a ha => ?_⟩
    · obtain ⟨k, h1, rfl, rfl⟩ := look_some ha
      exact (h k h1).1
    · obtain ⟨k, h1, rfl, rfl⟩ := look_some ha
      exact (h k h1).2

omit [Field K] [LinearOrder K] in
theorem scatter_length (n nb : ℕ) (idx : ℕ → ℕ) (b : ℕ → K) : (scatter n nb idx b).length = n := by
  rw [scatter_eq]; simp

omit [Field K] [LinearOrder K] in
theorem replicate_eq (n : ℕ) (a : Option K) :
    List.replicate n a = (List.range n).map (fun _ => a) := by
  rw [List.map_const', List.length_range]

/-- The bounds of the variables of one stage. -/
theorem vars_stage (o : Ocp K) (ho : Proper o) (v : Sym → K) (i : ℕ) (hi : i ≤ o.N) :
    AllWithin ((symsAt o i).map v) (lbAt o i) (ubAt o i) ↔
      (∀ k, k < (o.at i).nbx → (o.at i).lbx k ≤ v (.x i ((o.at i).idxbx k)) ∧
        v (.x i ((o.at i).idxbx k)) ≤ (o.at i).ubx k) ∧
      (i < o.N → ∀ k, k < o.nbu → o.lbu k ≤ v (.u i (o.idxbu k)) ∧
        v (.u i (o.idxbu k)) ≤ o.ubu k) ∧
      (∀ k, k < (o.at i).soft → 0 ≤ v (.sl i k)) ∧ (∀ k, k < (o.at i).soft → 0 ≤ v (.su i k)) := by
  unfold symsAt lbAt ubAt
  rw [List.map_append, List.map_append, List.map_append]
  rw [aw_append (by split <;> simp [scatter_length, xs, us, sls, *])
      (by split <;> simp [scatter_length, xs, us, sls, *]),
    aw_append (by split <;> simp [scatter_length, xs, us, *])
      (by split <;> simp [scatter_length, xs, us, *]),
    aw_append (by simp [scatter_length, xs]) (by simp [scatter_length, xs])]
  have e1 : (xs o i).map v = (List.range o.nx).map (fun j => v (.x i j)) := by
    unfold xs; rw [List.map_map]; rfl
  have e2 : (sls o i).map v = (List.range (numSlack (varData o i))).map (fun j => v (.sl i j)) := by
    unfold sls; rw [List.map_map]; rfl
  have e3 : (sus o i).map v = (List.range (numSlack (varData o i))).map (fun j => v (.su i j)) := by
    unfold sus; rw [List.map_map]; rfl
  have hu : AllWithin ((if i < o.N then us o i else []).map v)
      (if i < o.N then scatter o.nu o.nbu o.idxbu o.lbu else [])
      (if i < o.N then scatter o.nu o.nbu o.idxbu o.ubu else []) ↔
      (i < o.N → ∀ k, k < o.nbu → o.lbu k ≤ v (.u i (o.idxbu k)) ∧
        v (.u i (o.idxbu k)) ≤ o.ubu k) := by
    by_cases h : i < o.N
    · simp only [h, if_true, true_imp_iff]
      have e4 : (us o i).map v = (List.range o.nu).map (fun j => v (.u i j)) := by
        unfold us; rw [List.map_map]; rfl
      rw [e4]
      exact aw_scatter _ _ _ _ _ _ ho.bu ho.buInj
    · simp [h, aw_nil]
  rw [e1, e2, e3, hu, replicate_eq, replicate_eq, aw_map, aw_map,
    aw_scatter o.nx (varData o i).nbx (varData o i).idxbx _ _ _ (ho.bx i hi) (ho.bxInj i hi)]
  have hsl : ∀ c : ℕ → K, (∀ r, r < numSlack (varData o i) → Within (some 0) none (c r)) ↔
      ∀ k, k < (o.at i).soft → 0 ≤ c k := by
    intro c
    refine forall_congr' fun r => imp_congr Iff.rfl ?_
    constructor
    · intro h; exact h.1 0 rfl
    · intro h
      exact ⟨fun b hb => by rw [← Option.some.inj hb]; exact h, fun b hb => by cases hb⟩
  rw [hsl, hsl]
  exact ⟨fun ⟨⟨⟨a, b⟩, c⟩, d⟩ => ⟨a, b, c, d⟩, fun ⟨a, b, c, d⟩ => ⟨⟨⟨a, b⟩, c⟩, d⟩⟩

/-! ### Bounds of constraints -/

def hLo (d : Stage K) (r : ℕ) : List (Option K) :=
  if r ∈ softList d then [some (d.lh r), none] else [some (d.lh r)]
def hUp (d : Stage K) (r : ℕ) : List (Option K) :=
  if r ∈ softList d then [none, some (d.uh r)] else [some (d.uh r)]

def clbAt (o : Ocp K) (i : ℕ) : List (Option K) :=
  (if i < o.N then List.replicate o.nx (some 0) else []) ++
  (List.range (conNg o i)).map (fun r => some (conLg o i r)) ++
  (List.range (conData o i).nh).flatMap (hLo (conData o i)) ++
  (List.range (conData o i).nphi).map (fun r => some ((conData o i).lphi r))

def cubAt (o : Ocp K) (i : ℕ) : List (Option K) :=
  (if i < o.N then List.replicate o.nx (some 0) else []) ++
  (List.range (conNg o i)).map (fun r => some (conUg o i r)) ++
  (List.range (conData o i).nh).flatMap (hUp (conData o i)) ++
  (List.range (conData o i).nphi).map (fun r => some ((conData o i).uphi r))

omit [Field K] [LinearOrder K] in
theorem softStep_b (d : Stage K) (i n : ℕ) (hn : n < d.nh) (s : Cons K) :
    (softStep d i s n).lbg = s.lbg ++ hLo d n ∧ (softStep d i s n).ubg = s.ubg ++ hUp d n := by
  unfold softStep hLo hUp
  by_cases hs : n ∈ softList d
  · simp [hs, appSl, appSu]
  · have hm : n ∈ hardList d := by
      unfold hardList
      rw [List.mem_filter]
      exact ⟨List.mem_range.2 (by omega), by simpa using hs⟩
    simp [hs, hm, appH]

omit [Field K] [LinearOrder K] in
theorem softLoop_b (d : Stage K) (i n : ℕ) (hn : n ≤ d.nh) (s : Cons K) :
    ((List.range n).foldl (softStep d i) s).lbg = s.lbg ++ (List.range n).flatMap (hLo d) ∧
    ((List.range n).foldl (softStep d i) s).ubg = s.ubg ++ (List.range n).flatMap (hUp d) := by
  induction n with
  | zero => simp
  | succ n ih =>
    obtain ⟨h1, h2⟩ := ih (by omega)
    rw [List.range_succ, List.foldl_append, List.flatMap_append, List.flatMap_append]
    simp only [List.foldl_cons, List.foldl_nil, List.flatMap_cons, List.flatMap_nil,
      List.append_nil]
    obtain ⟨h3, h4⟩ := softStep_b d i n (by omega) ((List.range n).foldl (softStep d i) s)
    rw [h3, h4, h1, h2]
    constructor <;> simp only [List.append_assoc]

omit [Field K] [LinearOrder K] in
theorem hPart_b (o : Ocp K) (i : ℕ) (s : Cons K) :
    (hPart o i s).lbg = s.lbg ++ (List.range (conData o i).nh).flatMap (hLo (conData o i)) ∧
    (hPart o i s).ubg = s.ubg ++ (List.range (conData o i).nh).flatMap (hUp (conData o i)) := by
  unfold hPart
  dsimp only
  by_cases h0 : 0 < (conData o i).nh
  · rw [if_pos h0]
    by_cases h1 : 0 < (conData o i).nsh
    · rw [if_pos h1]
      exact softLoop_b _ _ _ le_rfl _
    · rw [if_neg h1]
      have hn : ∀ r, r ∉ softList (conData o i) := soft_none (by omega)
      have e1 : ∀ l : List ℕ, l.flatMap (hLo (conData o i)) =
          l.map (fun r => some ((conData o i).lh r)) := by
        intro l
        induction l with
        | nil => rfl
        | cons r t ih => simp only [List.flatMap_cons, ih]; simp [hLo, hn r]
      have e2 : ∀ l : List ℕ, l.flatMap (hUp (conData o i)) =
          l.map (fun r => some ((conData o i).uh r)) := by
        intro l
        induction l with
        | nil => rfl
        | cons r t ih => simp only [List.flatMap_cons, ih]; simp [hUp, hn r]
      rw [e1, e2]
      exact ⟨rfl, rfl⟩
  · rw [if_neg h0]
    have : (conData o i).nh = 0 := by omega
    simp [this]

omit [LinearOrder K] in
theorem conStage_b (o : Ocp K) (s : Cons K) (i : ℕ) :
    (conStage o s i).lbg = s.lbg ++ clbAt o i ∧ (conStage o s i).ubg = s.ubg ++ cubAt o i := by
  have hd : ∀ s : Cons K, (dynPart o i s).lbg = s.lbg ++
      (if i < o.N then List.replicate o.nx (some 0) else []) ∧
      (dynPart o i s).ubg = s.ubg ++ (if i < o.N then List.replicate o.nx (some 0) else []) := by
    intro s
    unfold dynPart
    by_cases h : i < o.N <;> simp [h, appDyn]
  have hl : ∀ s : Cons K, (linPart o i s).lbg = s.lbg ++
      (List.range (conNg o i)).map (fun r => some (conLg o i r)) ∧
      (linPart o i s).ubg = s.ubg ++ (List.range (conNg o i)).map (fun r => some (conUg o i r)) := by
    intro s
    unfold linPart
    by_cases h : 0 < conNg o i
    · simp [h, appG]
    · have : conNg o i = 0 := by omega
      simp [this]
  have hp : ∀ s : Cons K, (phiPart o i s).lbg = s.lbg ++
      (List.range (conData o i).nphi).map (fun r => some ((conData o i).lphi r)) ∧
      (phiPart o i s).ubg = s.ubg ++
      (List.range (conData o i).nphi).map (fun r => some ((conData o i).uphi r)) := by
    intro s
    unfold phiPart
    dsimp only
    by_cases h : 0 < (conData o i).nphi
    · simp [h, appPhi]
    · have : (conData o i).nphi = 0 := by omega
      simp [this]
  unfold conStage clbAt cubAt
  rw [(hp _).1, (hp _).2, (hPart_b o i _).1, (hPart_b o i _).2, (hl _).1, (hl _).2, (hd _).1,
    (hd _).2]
  constructor <;> simp only [List.append_assoc]

omit [LinearOrder K] in
theorem cons_b (o : Ocp K) :
    (cons o).lbg = (List.range (o.N + 1)).flatMap (clbAt o) ∧
    (cons o).ubg = (List.range (o.N + 1)).flatMap (cubAt o) := by
  have key : ∀ k, ((List.range k).foldl (conStage o) Cons.empty).lbg =
      (List.range k).flatMap (clbAt o) ∧
      ((List.range k).foldl (conStage o) Cons.empty).ubg = (List.range k).flatMap (cubAt o) := by
    intro k
    induction k with
    | zero => exact ⟨rfl, rfl⟩
    | succ k ih =>
      rw [List.range_succ, List.foldl_append, List.flatMap_append, List.flatMap_append]
      simp only [List.foldl_cons, List.foldl_nil, List.flatMap_cons, List.flatMap_nil,
        List.append_nil]
      rw [(conStage_b o _ k).1, (conStage_b o _ k).2, ih.1, ih.2]
      exact ⟨rfl, rfl⟩
  exact key _

omit [Field K] [LinearOrder K] in
theorem hRow_len (d : Stage K) (i : ℕ) (l : List ℕ) :
    (l.flatMap (hLo d)).length = (l.flatMap (hRow d i)).length ∧
    (l.flatMap (hUp d)).length = (l.flatMap (hRow d i)).length := by
  induction l with
  | nil => simp
  | cons r t ih =>
    simp only [List.flatMap_cons, List.length_append, ih.1, ih.2]
    unfold hLo hUp hRow
    split <;> simp

omit [Field K] in
theorem within_both {a b c : K} : Within (some a) (some b) c ↔ a ≤ c ∧ c ≤ b := by
  constructor
  · intro h; exact ⟨h.1 a rfl, h.2 b rfl⟩
  · rintro ⟨h1, h2⟩
    exact ⟨fun x hx => by rw [← Option.some.inj hx]; exact h1,
      fun x hx => by rw [← Option.some.inj hx]; exact h2⟩

omit [Field K] in
theorem aw_single {a : K} {l u : Option K} : AllWithin [a] [l] [u] ↔ Within l u a := by
  have := aw_map 1 (fun _ => a) (fun _ => l) (fun _ => u)
  simpa using this

omit [Field K] [LinearOrder K] in
theorem mem_softList (d : Stage K) (r : ℕ) : r ∈ softList d ↔ ∃ k, k < d.nsh ∧ d.idxsh k = r := by
  simp [softList]

omit [Field K] [LinearOrder K] in
theorem idxOf_soft (d : Stage K)
    (hinj : ∀ k, k < d.nsh → ∀ k', k' < d.nsh → d.idxsh k = d.idxsh k' → k = k') {k : ℕ}
    (hk : k < d.nsh) : (softList d).idxOf (d.idxsh k) = k := by
  have hnd : (softList d).Nodup := by
    unfold softList
    refine List.Nodup.map_on ?_ List.nodup_range
    intro a ha b hb h
    exact hinj a (List.mem_range.1 ha) b (List.mem_range.1 hb) h
  have hlen : k < (softList d).length := by simpa [softList] using hk
  have : (softList d)[k] = d.idxsh k := by simp [softList]
  rw [← this, hnd.idxOf_getElem]

/-- The nonlinear constraints of one stage. -/
theorem h_stage (d : Stage K) (i : ℕ) (val : Con → K) (c sl su : ℕ → K)
    (hinj : ∀ k, k < d.nsh → ∀ k', k' < d.nsh → d.idxsh k = d.idxsh k' → k = k')
    (hb : ∀ k, k < d.nsh → d.idxsh k < d.nh)
    (h1 : ∀ r, val (.h i r) = c r) (h2 : ∀ r k, val (.hl i r k) = c r + sl k)
    (h3 : ∀ r k, val (.hu i r k) = c r - su k) :
    AllWithin (((List.range d.nh).flatMap (hRow d i)).map val)
      ((List.range d.nh).flatMap (hLo d)) ((List.range d.nh).flatMap (hUp d)) ↔
      Soft d.nh d.nsh d.idxsh d.lh d.uh c sl su := by
  rw [List.map_flatMap, aw_flatMap]
  rotate_left
  · intro r _; unfold hLo hRow; split <;> simp
  · intro r _; unfold hUp hRow; split <;> simp
  have row : ∀ r, AllWithin ((hRow d i r).map val) (hLo d r) (hUp d r) ↔
      ((∀ k, k < d.nsh → d.idxsh k ≠ r) → d.lh r ≤ c r ∧ c r ≤ d.uh r) ∧
      (∀ k, k < d.nsh → d.idxsh k = r → d.lh r ≤ c r + sl k ∧ c r - su k ≤ d.uh r) := by
    intro r
    unfold hRow hLo hUp
    by_cases hs : r ∈ softList d
    · simp only [hs, if_true]
      obtain ⟨k, hk, rfl⟩ := (mem_softList d r).1 hs
      rw [idxOf_soft d hinj hk]
      have e : AllWithin ([Con.hl i (d.idxsh k) k, Con.hu i (d.idxsh k) k].map val)
          [some (d.lh (d.idxsh k)), none] [none, some (d.uh (d.idxsh k))] ↔
          AllWithin [val (.hl i (d.idxsh k) k)] [some (d.lh (d.idxsh k))] [none] ∧
          AllWithin [val (.hu i (d.idxsh k) k)] [none] [some (d.uh (d.idxsh k))] :=
        aw_append (a := [_]) (a' := [_]) (l := [_]) (l' := [_]) (u := [_]) (u' := [_]) rfl rfl
      rw [e, aw_single, aw_single, h2, h3]
      constructor
      · rintro ⟨ha, hb'⟩
        refine ⟨fun h => absurd rfl (h k hk), fun k' hk' he => ?_⟩
        rw [hinj k' hk' k hk he]
        exact ⟨ha.1 _ rfl, hb'.2 _ rfl⟩
      · rintro ⟨_, h⟩
        have := h k hk rfl
        refine ⟨⟨fun x hx => ?_, fun x hx => (by cases hx)⟩,
          ⟨fun x hx => (by cases hx), fun x hx => ?_⟩⟩
        · rw [← Option.some.inj hx]; exact this.1
        · rw [← Option.some.inj hx]; exact this.2
    · simp only [hs, if_false, List.map_cons, List.map_nil]
      rw [aw_single, within_both, h1]
      have hn : ∀ k, k < d.nsh → d.idxsh k ≠ r := fun k hk he =>
        hs ((mem_softList d r).2 ⟨k, hk, he⟩)
      exact ⟨fun h => ⟨fun _ => h, fun k hk he => absurd he (hn k hk)⟩, fun h => h.1 hn⟩
  unfold Soft
  constructor
  · intro h
    refine ⟨fun r hr => ((row r).1 (h r (List.mem_range.2 hr))).1, fun k hk => ?_⟩
    exact ((row (d.idxsh k)).1 (h _ (List.mem_range.2 (hb k hk)))).2 k hk rfl
  · rintro ⟨ha, hb'⟩ r hr
    refine (row r).2 ⟨ha r (List.mem_range.1 hr), fun k hk he => ?_⟩
    subst he
    exact hb' k hk

omit [Field K] [LinearOrder K] in
theorem conData_eq (o : Ocp K) (hN : 0 < o.N) (i : ℕ) : conData o i = o.at i := by
  unfold conData Ocp.at
  simp [hN]

omit [LinearOrder K] in
theorem sum_list (n : ℕ) (f : ℕ → K) :
    ((List.range n).map f).sum = ∑ j ∈ Finset.range n, f j := by
  induction n with
  | zero => simp
  | succ n ih => rw [List.range_succ, Finset.sum_range_succ, ← ih]; simp

theorem cons_stage [IsStrictOrderedRing K] (o : Ocp K) {i : ℕ} (ho : Proper o) (hN : 0 < o.N)
    (hp : (o.at i).nsphi = 0)
    (hst : ∀ i, i < o.N → o.f (o.steps i) i = o.f (o.steps 0) i) (v : Sym → K)
    (hi : i ≤ o.N) :
    AllWithin ((consAt o i).map (Con.eval o v)) (clbAt o i) (cubAt o i) ↔
      (i < o.N → ∀ j, j < o.nx → (traj v).x (i + 1) j =
        o.f (o.steps i) i ((traj v).x i) ((traj v).u i) j) ∧
      (∀ k, k < (if i < o.N then o.ng else o.nge) →
        (if i < o.N then o.lg k else o.lge k) ≤ linRow o (traj v) i k ∧
        linRow o (traj v) i k ≤ (if i < o.N then o.ug k else o.uge k)) ∧
      Soft (o.at i).nh (o.at i).nsh (o.at i).idxsh (o.at i).lh (o.at i).uh
        ((o.at i).h i ((traj v).x i) (ctrl o (traj v) i)) ((traj v).sl i) ((traj v).su i) ∧
      Soft (o.at i).nphi (o.at i).nsphi (o.at i).idxsphi (o.at i).lphi (o.at i).uphi
        ((o.at i).phi i ((traj v).x i) (ctrl o (traj v) i))
        (fun k => (traj v).sl i ((o.at i).nsh + k)) (fun k => (traj v).su i ((o.at i).nsh + k)) := by
  have hrow := hRow_len (conData o i) i (List.range (conData o i).nh)
  unfold consAt clbAt cubAt
  rw [List.map_append, List.map_append, List.map_append]
  rw [aw_append (by split <;> simp [dyns, lins, hs, hrow.1]) (by split <;> simp [dyns, lins, hs, hrow.2]),
    aw_append (by split <;> simp [dyns, lins]) (by split <;> simp [dyns, lins]),
    aw_append (by split <;> simp [dyns]) (by split <;> simp [dyns])]
  have e1 : (lins o i).map (Con.eval o v) =
      (List.range (conNg o i)).map (fun r => linRow o (traj v) i r) := by
    unfold lins
    rw [List.map_map]
    apply List.map_congr_left
    intro r _
    simp only [Function.comp_apply, Con.eval, linRow, traj]
    rw [sum_list, sum_list, sum_list]
  have e2 : (phis o i).map (Con.eval o v) =
      (List.range (conData o i).nphi).map
        (fun r => (o.at i).phi i ((traj v).x i) (ctrl o (traj v) i) r) := by
    unfold phis
    rw [List.map_map]
    apply List.map_congr_left
    intro r _
    simp only [Function.comp_apply, Con.eval, conData_eq o hN i]
    rfl
  have hdyn : AllWithin ((if i < o.N then dyns o i else []).map (Con.eval o v))
      (if i < o.N then List.replicate o.nx (some 0) else [])
      (if i < o.N then List.replicate o.nx (some 0) else []) ↔
      (i < o.N → ∀ j, j < o.nx → (traj v).x (i + 1) j =
        o.f (o.steps i) i ((traj v).x i) ((traj v).u i) j) := by
    by_cases h : i < o.N
    · simp only [h, if_true, true_imp_iff]
      have e3 : (dyns o i).map (Con.eval o v) = (List.range o.nx).map (fun j =>
          (traj v).x (i + 1) j - o.f (o.steps i) i ((traj v).x i) ((traj v).u i) j) := by
        unfold dyns
        rw [List.map_map]
        apply List.map_congr_left
        intro j _
        rw [hst i h]
        rfl
      rw [e3, replicate_eq, aw_map]
      refine forall_congr' fun j => imp_congr Iff.rfl ?_
      rw [within_both]
      constructor
      · rintro ⟨h1, h2⟩
        exact sub_eq_zero.1 (le_antisymm h2 h1)
      · intro he
        rw [he, sub_self]
        exact ⟨le_rfl, le_rfl⟩
    · simp [h, aw_nil]
  have hh := h_stage (conData o i) i (Con.eval o v)
    ((o.at i).h i ((traj v).x i) (ctrl o (traj v) i)) ((traj v).sl i) ((traj v).su i)
    (by rw [conData_eq o hN i]; exact ho.shInj i hi)
    (by rw [conData_eq o hN i]; exact ho.sh i hi)
    (by intro r; simp only [Con.eval, conData_eq o hN i]; rfl)
    (by intro r k; simp only [Con.eval, conData_eq o hN i]; rfl)
    (by intro r k; simp only [Con.eval, conData_eq o hN i]; rfl)
  have hphi : AllWithin ((List.range (conData o i).nphi).map
        (fun r => (o.at i).phi i ((traj v).x i) (ctrl o (traj v) i) r))
      ((List.range (conData o i).nphi).map (fun r => some ((conData o i).lphi r)))
      ((List.range (conData o i).nphi).map (fun r => some ((conData o i).uphi r))) ↔
      Soft (o.at i).nphi (o.at i).nsphi (o.at i).idxsphi (o.at i).lphi (o.at i).uphi
        ((o.at i).phi i ((traj v).x i) (ctrl o (traj v) i))
        (fun k => (traj v).sl i ((o.at i).nsh + k)) (fun k => (traj v).su i ((o.at i).nsh + k)) := by
    rw [aw_map, conData_eq o hN i]
    unfold Soft
    constructor
    · intro h
      refine ⟨fun r hr _ => within_both.1 (h r hr), fun k hk => ?_⟩
      omega
    · rintro ⟨h, _⟩ r hr
      exact within_both.2 (h r hr (fun k hk => by omega))
  rw [e1, e2, hdyn, hphi, aw_map]
  unfold hs
  rw [hh, conData_eq o hN i]
  have hlin : (∀ r, r < conNg o i → Within (some (conLg o i r)) (some (conUg o i r))
        (linRow o (traj v) i r)) ↔
      (∀ k, k < (if i < o.N then o.ng else o.nge) →
        (if i < o.N then o.lg k else o.lge k) ≤ linRow o (traj v) i k ∧
        linRow o (traj v) i k ≤ (if i < o.N then o.ug k else o.uge k)) := by
    unfold conNg conLg conUg
    refine forall_congr' fun r => imp_congr Iff.rfl ?_
    rw [within_both]
    split <;> rfl
  rw [hlin]
  exact ⟨fun ⟨⟨⟨a, b⟩, c⟩, d⟩ => ⟨a, b, c, d⟩, fun ⟨a, b, c, d⟩ => ⟨⟨⟨a, b⟩, c⟩, d⟩⟩

omit [Field K] [LinearOrder K] in
theorem symsAt_len (o : Ocp K) (i : ℕ) : (ubAt o i).length = (symsAt o i).length := by
  unfold ubAt symsAt
  split <;> simp [scatter_length, xs, us, sls, sus]

omit [LinearOrder K] in
theorem symsAt_len' (o : Ocp K) (i : ℕ) : (lbAt o i).length = (symsAt o i).length := by
  unfold lbAt symsAt
  split <;> simp [scatter_length, xs, us, sls, sus]

omit [LinearOrder K] in
theorem consAt_len (o : Ocp K) (i : ℕ) : (clbAt o i).length = (consAt o i).length ∧
    (cubAt o i).length = (consAt o i).length := by
  have hrow := hRow_len (conData o i) i (List.range (conData o i).nh)
  unfold clbAt cubAt consAt
  constructor
  · split <;> simp [dyns, lins, hs, phis, hrow.1]
  · split <;> simp [dyns, lins, hs, phis, hrow.2]

theorem feasible_iff [IsStrictOrderedRing K] (o : Ocp K) (ho : Proper o) (hN : 0 < o.N)
    (hp : ∀ i, i ≤ o.N → (o.at i).nsphi = 0)
    (hz : ∀ i, i ≤ o.N → ∀ k, k < (o.at i).nsh → (o.at i).lsh k = 0 ∧ (o.at i).ush k = 0)
    (hst : ∀ i, i < o.N → o.f (o.steps i) i = o.f (o.steps 0) i) (v : Sym → K) :
    Nlp.Feasible o ⟨vars o, cons o⟩ v ↔ Feasible o (traj v) := by
  have hv := vinv o ho
  have hc := cinv o
  have hb := cons_b o
  unfold Nlp.Feasible
  simp only
  rw [hv.p.hw, hv.lbw, hv.ubw, hc.hg, hb.1, hb.2, List.map_flatMap, List.map_flatMap,
    aw_flatMap _ _ _ _ (fun i _ => by rw [symsAt_len', List.length_map])
      (fun i _ => by rw [symsAt_len, List.length_map]),
    aw_flatMap _ _ _ _ (fun i _ => by rw [(consAt_len o i).1, List.length_map])
      (fun i _ => by rw [(consAt_len o i).2, List.length_map])]
  constructor
  · rintro ⟨h1, h2⟩ i hi
    have hm : i ∈ List.range (o.N + 1) := List.mem_range.2 (by omega)
    obtain ⟨a1, a2, a3, a4⟩ := (vars_stage o ho v i hi).1 (h1 i hm)
    obtain ⟨b1, b2, b3, b4⟩ := (cons_stage o ho hN (hp i hi) hst v hi).1 (h2 i hm)
    refine ⟨a1, a2, b1, b2, b3, b4, fun k hk => ?_, fun k hk => ?_⟩
    · rw [(hz i hi k hk).1, (hz i hi k hk).2]
      exact ⟨a3 k (by unfold Stage.soft; omega), a4 k (by unfold Stage.soft; omega)⟩
    · rw [hp i hi] at hk; omega
  · intro h
    refine ⟨fun i hm => ?_, fun i hm => ?_⟩
    · have hi : i ≤ o.N := by have := List.mem_range.1 hm; omega
      obtain ⟨c1, c2, c3, c4, c5, c6, c7, c8⟩ := h i hi
      refine (vars_stage o ho v i hi).2 ⟨c1, c2, fun k hk => ?_, fun k hk => ?_⟩
      · have hk' : k < (o.at i).nsh := by
          unfold Stage.soft at hk; rw [hp i hi] at hk; exact hk
        have := (c7 k hk').1
        rwa [(hz i hi k hk').1] at this
      · have hk' : k < (o.at i).nsh := by
          unfold Stage.soft at hk; rw [hp i hi] at hk; exact hk
        have := (c7 k hk').2
        rwa [(hz i hi k hk').2] at this
    · have hi : i ≤ o.N := by have := List.mem_range.1 hm; omega
      obtain ⟨c1, c2, c3, c4, c5, c6, c7, c8⟩ := h i hi
      exact (cons_stage o ho hN (hp i hi) hst v hi).2 ⟨c3, c4, c5, c6⟩

/-! ### Cost -/

omit [LinearOrder K] in
theorem costStep_eq (o : Ocp K) (v : Sym → K) (acc : K) (i : ℕ)
    (hterm : ∀ x u u', o.term.cost o.N x u = o.term.cost o.N x u') (hN : 0 < o.N) (hi : i ≤ o.N) :
    costStep o v acc i = acc + o.scaling i *
      ((o.at i).cost i ((traj v).x i) (ctrl o (traj v) i) +
        ∑ k ∈ Finset.range (o.at i).soft,
          ((o.at i).Zl k * (traj v).sl i k ^ 2 / 2 + (o.at i).zl k * (traj v).sl i k +
            ((o.at i).Zu k * (traj v).su i k ^ 2 / 2 + (o.at i).zu k * (traj v).su i k))) := by
  have hc : (varData o i).cost i (fun j => v (.x i j))
      (if i < o.N then (fun j => v (.u i j)) else (fun j => v (.u (o.N - 1) j))) =
      (o.at i).cost i ((traj v).x i) (ctrl o (traj v) i) := by
    by_cases h : i < o.N
    · simp only [h, if_true, ctrl]; rfl
    · have : i = o.N := by omega
      subst this
      have e : o.at o.N = o.term := by simp [Ocp.at]; omega
      have e' : varData o o.N = o.term := e
      rw [e', e]
      exact hterm _ _ _
  have hpen : penalty (varData o i) v i = ∑ k ∈ Finset.range (o.at i).soft,
          ((o.at i).Zl k * (traj v).sl i k ^ 2 / 2 + (o.at i).zl k * (traj v).sl i k +
            ((o.at i).Zu k * (traj v).su i k ^ 2 / 2 + (o.at i).zu k * (traj v).su i k)) := by
    unfold penalty
    rw [sum_list, sum_list, sum_list, sum_list, Finset.mul_sum, Finset.mul_sum,
      ← Finset.sum_add_distrib, ← Finset.sum_add_distrib, ← Finset.sum_add_distrib]
    refine Finset.sum_congr rfl fun k _ => ?_
    show 1 / 2 * (v (.sl i k) * ((o.at i).Zl k * v (.sl i k))) + (o.at i).zl k * v (.sl i k) +
      1 / 2 * (v (.su i k) * ((o.at i).Zu k * v (.su i k))) + (o.at i).zu k * v (.su i k) =
      (o.at i).Zl k * v (.sl i k) ^ 2 / 2 + (o.at i).zl k * v (.sl i k) +
      ((o.at i).Zu k * v (.su i k) ^ 2 / 2 + (o.at i).zu k * v (.su i k))
    ring
  unfold costStep
  dsimp only
  rw [hc, hpen]
  split
  · ring
  · rename_i h
    have h0 : (o.at i).soft = 0 := by
      have : numSlack (varData o i) = 0 := by omega
      exact this
    rw [h0, Finset.range_zero, Finset.sum_empty, add_zero]

omit [LinearOrder K] in
theorem cost_eq (o : Ocp K) (v : Sym → K)
    (hterm : ∀ x u u', o.term.cost o.N x u = o.term.cost o.N x u') (hN : 0 < o.N) :
    cost o v = objective o (traj v) := by
  unfold cost objective
  have key : ∀ n, n ≤ o.N + 1 → (List.range n).foldl (costStep o v) 0 =
      ∑ i ∈ Finset.range n, o.scaling i *
      ((o.at i).cost i ((traj v).x i) (ctrl o (traj v) i) +
        ∑ k ∈ Finset.range (o.at i).soft,
          ((o.at i).Zl k * (traj v).sl i k ^ 2 / 2 + (o.at i).zl k * (traj v).sl i k +
            ((o.at i).Zu k * (traj v).su i k ^ 2 / 2 + (o.at i).zu k * (traj v).su i k))) := by
    intro n
    induction n with
    | zero => intro _; simp
    | succ n ih =>
      intro hn
      rw [List.range_succ, List.foldl_append, Finset.sum_range_succ, ← ih (by omega)]
      simp only [List.foldl_cons, List.foldl_nil]
      rw [costStep_eq o v _ n hterm hN (by omega)]
  exact key _ le_rfl

end

end Acados.CasadiNlp
