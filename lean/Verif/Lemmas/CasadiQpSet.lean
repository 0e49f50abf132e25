import Verif.Lemmas.CasadiQpLam
/-! Lemmas for C94: setting multipliers. -/
namespace Acados.CasadiQp
open Finset
variable {K : Type} [Field K] [LinearOrder K]

theorem put_out {α : Type} (a : Nat → α) (idx : List Nat) (v : List α) (q : Nat) (h : q ∉ idx) : put a idx v q = a q := by
  unfold put
  induction idx generalizing a v with
  | nil => rfl
  | cons x t ih =>
    rcases v with _ | ⟨y, v⟩
    · rfl
    · simp only [List.zip_cons_cons, List.foldl_cons]
      rw [ih _ _ (fun hh => h (List.mem_cons_of_mem _ hh)), Function.update_of_ne]
      rintro rfl
      exact h List.mem_cons_self

theorem put_in {α : Type} (a : Nat → α) (L : List Nat) (P : Nat → Nat) (V : Nat → α) (inj : ∀ i ∈ L, ∀ j ∈ L, P i = P j → i = j) (j : Nat) (hj : j ∈ L) :
    put a (L.map P) (L.map V) (P j) = V j := by
  unfold put
  induction L generalizing a with
  | nil => cases hj
  | cons x t ih =>
    simp only [List.map_cons, List.zip_cons_cons, List.foldl_cons]
    by_cases h : j ∈ t
    · exact ih _ (fun i hi j hj => inj i (List.mem_cons_of_mem _ hi) j (List.mem_cons_of_mem _ hj)) h
    · have hx : j = x := by
        rcases List.mem_cons.1 hj with e | e
        · exact e
        · exact absurd e h
      subst hx
      have := put_out (Function.update a (P j) (V j)) (t.map P) (t.map V) (P j) (by
        intro hm
        obtain ⟨i, hi, he⟩ := List.mem_map.1 hm
        have := inj i (List.mem_cons_of_mem _ hi) j List.mem_cons_self he
        subst this
        exact h hi)
      unfold put at this
      rw [this, Function.update_self]

theorem put_range' {α : Type} (a : Nat → α) (o n : Nat) (V : Nat → α) (j : Nat) (hj : j < n) : put a (List.range' o n) ((List.range n).map V) (o + j) = V j := by
  rw [List.range'_eq_map_range]
  exact put_in a (List.range n) (fun i => o + i) V (fun i _ j _ h => by omega) j (List.mem_range.2 hj)

theorem not_range' {o n q : Nat} (h : q < o ∨ o + n ≤ q) : q ∉ List.range' o n := by
  rw [List.mem_range'_1]
  omega

omit [LinearOrder K] in
theorem setB_spec (g : G K) (k : Nat) (kl ku : Key) (i o n : Nat) (rev : Nat → Option Nat) (L U : Nat → K) (a : (Nat → K) × (Nat → K))
    (h1 : g.map kl k = List.range' o (softIdx n rev).length) (h2 : g.map ku k = List.range' (o + (softIdx n rev).length) (softIdx n rev).length)
    (all : (∀ j < n, rev j = none) ∨ ∀ j < n, (rev j).isSome) :
    let r := setB g k kl ku (List.range' i n) ((List.range n).map L) ((List.range n).map U) a
    (∀ j < n, rev j = none → r.1 (i + j) = U j - L j) ∧ (∀ j < n, (rev j).isSome → r.2 (o + j) = -L j ∧ r.2 (o + n + j) = U j)
    ∧ (∀ q, (q < i ∨ i + n ≤ q) → r.1 q = a.1 q) ∧ ∀ q, (q < o ∨ o + 2 * (softIdx n rev).length ≤ q) → r.2 q = a.2 q := by
  intro r
  have hz : List.zipWith (fun x y : K => x - y) ((List.range n).map U) ((List.range n).map L) = (List.range n).map fun j => U j - L j := by
    rw [List.zipWith_map, List.zipWith_self]
  rcases all with h | h
  · have hn := softIdx_none n rev h
    have hr : r = (put a.1 (List.range' i n) ((List.range n).map fun j => U j - L j), a.2) := by
      show setB _ _ _ _ _ _ _ _ = _
      unfold setB
      rw [h1, hn, List.length_nil, List.range'_zero, if_pos rfl, hz]
    rw [hr]
    refine ⟨fun j hj _ => put_range' _ _ _ _ _ hj, fun j hj hs => ?_, fun q hq => put_out _ _ _ _ (not_range' hq), fun q _ => rfl⟩
    rw [h j hj] at hs; cases hs
  · have hn := softIdx_all n rev h
    rw [hn, List.length_range] at h1 h2
    by_cases h0 : n = 0
    · subst h0
      have hr : r = a := by
        show setB _ _ _ _ _ _ _ _ = _
        unfold setB
        rw [h1, List.range'_zero, if_pos rfl]
        rfl
      rw [hr]
      exact ⟨fun j hj => by omega, fun j hj => by omega, fun q _ => rfl, fun q _ => rfl⟩
    · have hr : r = (a.1, put (put a.2 (List.range' o n) ((List.range n).map fun j => -L j)) (List.range' (o + n) n) ((List.range n).map U)) := by
        show setB _ _ _ _ _ _ _ _ = _
        unfold setB
        rw [h1, h2, if_neg (by rw [List.range'_eq_nil_iff]; exact h0), List.map_map]
        rfl
      rw [hr]
      refine ⟨fun j hj hs => ?_, fun j hj _ => ⟨?_, put_range' _ _ _ _ _ hj⟩, fun q _ => rfl, fun q hq => ?_⟩
      · have := h j hj
        rw [hs] at this; cases this
      · dsimp only
        rw [put_out _ _ _ _ (not_range' (by omega)), put_range' _ _ _ _ _ hj]
      · rw [hn, List.length_range] at hq
        dsimp only
        rw [put_out _ _ _ _ (not_range' (by omega)), put_out _ _ _ _ (not_range' (by omega))]

omit [LinearOrder K] in
theorem map_zip_sub (L : List Nat) (f g : Nat → K) : List.zipWith (· - ·) (L.map f) (L.map g) = L.map fun j => f j - g j := by
  rw [List.zipWith_map, List.zipWith_self]

omit [LinearOrder K] in
theorem setG_spec (qp : Qp K) (k : Nat) (hk : k ≤ qp.N) (L U : Nat → K) (a : Nat → K) :
    let s := qp.st k
    let r := setG (buildG qp) k ((List.range s.ng).map L) ((List.range s.ng).map U) a
    (∀ j < s.ng, s.rev (s.nb + j) = none → r (sbase qp k + gpos s j) = L j - U j)
    ∧ (∀ j < s.ng, (s.rev (s.nb + j)).isSome → r (sbase qp k + gpos s j) = -L j ∧ r (sbase qp k + gpos s j + 1) = U j)
    ∧ ∀ q < sbase qp k + 2 * mU s + 2 * mX s, r q = a q := by
  intro s r
  have E1 : (buildG qp).map .g k = (hardG s s.ng).map fun j => sbase qp k + gpos s j := G_map qp .g (by decide) k hk
  have E2 : (buildG qp).map .gsl k = (softG s s.ng).map fun j => sbase qp k + gpos s j := G_map qp .gsl (by decide) k hk
  have E3 : (buildG qp).map .gsu k = (softG s s.ng).map fun j => sbase qp k + gpos s j + 1 := G_map qp .gsu (by decide) k hk
  generalize sbase qp k = o at E1 E2 E3 ⊢
  have m := gpos_mono s o
  have hp := hs_perm s s.ng
  have epos : ((hardG s s.ng ++ softG s s.ng).map fun j => o + gpos s j).map (rank ((hardG s s.ng ++ softG s s.ng).map fun j => o + gpos s j)) = hardG s s.ng ++ softG s s.ng := by
    rw [List.map_map]
    conv_rhs => rw [← List.map_id (hardG s s.ng ++ softG s s.ng)]
    apply List.map_congr_left
    intro j hj
    exact rank_perm _ _ hp (fun j => o + gpos s j) m j (le_of_lt (List.mem_range.1 (hp.mem_iff.1 hj)))
  have hH : ∀ j ∈ hardG s s.ng, j < s.ng ∧ s.rev (s.nb + j) = none := fun j hj => by
    obtain ⟨h1, h2⟩ := List.mem_filter.1 hj
    exact ⟨List.mem_range.1 h1, Option.isNone_iff_eq_none.1 h2⟩
  have hS : ∀ j ∈ softG s s.ng, j < s.ng ∧ (s.rev (s.nb + j)).isSome := fun j hj => by
    obtain ⟨h1, h2⟩ := List.mem_filter.1 hj
    exact ⟨List.mem_range.1 h1, h2⟩
  have gd : ∀ (V : Nat → K), ∀ j < s.ng, ((List.range s.ng).map V).getD j 0 = V j := fun V j hj => by
    rw [List.getD_eq_getElem?_getD, List.getElem?_map, List.getElem?_range hj]; rfl
  have gH : ∀ V : Nat → K, (hardG s s.ng).map (fun i => ((List.range s.ng).map V).getD i 0) = (hardG s s.ng).map V := fun V =>
    List.map_congr_left fun j hj => gd V j (hH j hj).1
  have gS : ∀ V : Nat → K, (softG s s.ng).map (fun i => ((List.range s.ng).map V).getD i 0) = (softG s s.ng).map V := fun V =>
    List.map_congr_left fun j hj => gd V j (hS j hj).1
  have inj : ∀ i j, o + gpos s i = o + gpos s j → i = j := fun i j h => by
    rcases Nat.lt_trichotomy i j with c | c | c
    · have := m i j c; omega
    · exact c
    · have := m j i c; omega
  have hr : r = put (put (put a ((hardG s s.ng).map fun j => o + gpos s j) ((hardG s s.ng).map fun j => L j - U j))
      ((softG s s.ng).map fun j => o + gpos s j) ((softG s s.ng).map fun j => -L j)) ((softG s s.ng).map fun j => o + gpos s j + 1) ((softG s s.ng).map U) := by
    show setG _ _ _ _ _ = _
    unfold setG
    dsimp only
    rw [E1, E2, E3, ← List.map_append, epos, List.length_map, List.take_left, List.drop_left, gH, gH, gS, gS, map_zip_sub, List.map_map]
    rfl
  rw [hr]
  have step2 : ∀ j ∈ softG s s.ng, ∀ i, o + gpos s i ≠ o + gpos s j + 1 := fun j hj i h => by
    have g2 : glen s j = 2 := by unfold glen; rw [if_pos (hS j hj).2]
    rcases Nat.lt_trichotomy i j with c | c | c
    · have := m i j c; omega
    · subst c; omega
    · have := gpos_step s j i c; omega
  refine ⟨fun j hj hn => ?_, fun j hj hs => ⟨?_, ?_⟩, fun q hq => ?_⟩
  · have hm : j ∈ hardG s s.ng := List.mem_filter.2 ⟨List.mem_range.2 hj, by rw [hn]; rfl⟩
    rw [put_out, put_out, put_in a (hardG s s.ng) (fun j => o + gpos s j) (fun j => L j - U j) (fun i _ j _ h => inj i j h) j hm]
    · intro h
      obtain ⟨i, hi, he⟩ := List.mem_map.1 h
      have := inj i j he
      subst this
      have := (hS i hi).2
      rw [hn] at this; cases this
    · intro h
      obtain ⟨i, hi, he⟩ := List.mem_map.1 h
      exact step2 i hi j he.symm
  · have hm : j ∈ softG s s.ng := List.mem_filter.2 ⟨List.mem_range.2 hj, hs⟩
    rw [put_out, put_in _ (softG s s.ng) (fun j => o + gpos s j) (fun j => -L j) (fun i _ j _ h => inj i j h) j hm]
    intro h
    obtain ⟨i, hi, he⟩ := List.mem_map.1 h
    exact step2 i hi j he.symm
  · have hm : j ∈ softG s s.ng := List.mem_filter.2 ⟨List.mem_range.2 hj, hs⟩
    exact put_in _ (softG s s.ng) (fun j => o + gpos s j + 1) U (fun i _ j _ h => inj i j (by omega)) j hm
  · have hb : ∀ i, q < o + gpos s i := fun i => by unfold gpos; omega
    rw [put_out, put_out, put_out]
    · intro h
      obtain ⟨i, hi, he⟩ := List.mem_map.1 h
      have := hb i; omega
    · intro h
      obtain ⟨i, hi, he⟩ := List.mem_map.1 h
      have := hb i; omega
    · intro h
      obtain ⟨i, hi, he⟩ := List.mem_map.1 h
      have := hb i; omega

omit [Field K] [LinearOrder K] in
theorem slice_map (V : Nat → K) (t a n : Nat) (h : a + n ≤ t) : slice ((List.range t).map V) a n = (List.range n).map fun j => V (a + j) := by
  unfold slice
  apply List.ext_getElem?
  intro i
  rw [List.getElem?_take]
  split
  · rename_i hi
    rw [List.getElem?_drop, List.getElem?_map, List.getElem?_map, List.getElem?_range (by omega), List.getElem?_range hi]
    rfl
  · rename_i hi
    rw [List.getElem?_eq_none (by simp; omega)]

theorem setLam_get [IsStrictOrderedRing K] (qp : Qp K) (k : Nat) (hk : k ≤ qp.N) (un : (qp.st k).Uniform) (bu : (qp.st k).nbu ≤ (qp.st k).nu) (bx : (qp.st k).nbx ≤ (qp.st k).nx)
    (term : k < qp.N ∨ (qp.st k).nbu = 0) (lamw lamg V : Nat → K)
    (comp : ∀ j < (qp.st k).nb, (qp.st k).rev j = none → 0 ≤ V j ∧ 0 ≤ V ((qp.st k).nb + (qp.st k).ng + j) ∧ (V j = 0 ∨ V ((qp.st k).nb + (qp.st k).ng + j) = 0))
    (zero : ∀ j < (qp.st k).ng, (qp.st k).rev ((qp.st k).nb + j) = none → V ((qp.st k).nb + j) = 0 ∧ V ((qp.st k).nb + (qp.st k).ng + (qp.st k).nb + j) = 0) :
    let r := setLam qp lamw lamg k ((List.range (2 * ((qp.st k).nb + (qp.st k).ng + (qp.st k).ns))).map V)
    getLam qp r.1 r.2 k = (List.range (2 * ((qp.st k).nb + (qp.st k).ng + (qp.st k).ns))).map V := by
  intro r
  rw [getLam_eq qp k hk un]
  have Lg : ((buildG qp).map .g k).length + ((buildG qp).map .gsl k).length = (qp.st k).ng := by
    rw [G_map qp .g (by decide) k hk, G_map qp .gsl (by decide) k hk]
    have := (hs_perm (qp.st k) (qp.st k).ng).length_eq
    rw [List.length_append, List.length_range] at this
    simp only [emap, List.length_map]
    exact this
  have Ls : (((buildW qp).lmap .sl)[k]?.getD []).length = (qp.st k).ns := by
    rw [lmap_get qp _ k hk, List.length_range']; rfl
  have hr : r = setLam qp lamw lamg k ((List.range (2 * ((qp.st k).nb + (qp.st k).ng + (qp.st k).ns))).map V) := rfl
  clear_value r
  unfold setLam at hr
  dsimp only at hr
  rw [Lg, Ls] at hr
  have eb : (qp.st k).nb = (qp.st k).nbu + (qp.st k).nbx := rfl
  rw [lmap_get qp .x k hk, lmap_get qp .u k hk, lmap_get qp .sl k hk, lmap_get qp .su k hk] at hr
  simp only [nlam] at hr
  rw [slice_map _ _ _ _ (by omega), slice_map _ _ _ _ (by omega), slice_map _ _ _ _ (by omega), slice_map _ _ _ _ (by omega),
    slice_map _ _ _ _ (by omega), slice_map _ _ _ _ (by omega), slice_map _ _ _ _ (by omega), slice_map _ _ _ _ (by omega)] at hr
  have SU := setB_spec (buildG qp) k .busl .busu (pos qp .u k) (sbase qp k) (qp.st k).nbu (qp.st k).rev (fun j => V (0 + j))
    (fun j => V ((qp.st k).nbu + (qp.st k).nbx + (qp.st k).ng + j)) (lamw, lamg)
    (by rw [G_map qp _ (by decide) k hk]; rfl) (by rw [G_map qp _ (by decide) k hk]; rfl) un.u
  dsimp only at SU
  have SA : ∃ A : (Nat → K) × (Nat → K), A = (if k < qp.N then setB (buildG qp) k .busl .busu (List.range' (pos qp .u k) (qp.st k).nbu) ((List.range (qp.st k).nbu).map fun j => V (0 + j))
      ((List.range (qp.st k).nbu).map fun j => V ((qp.st k).nbu + (qp.st k).nbx + (qp.st k).ng + j)) (lamw, lamg) else (lamw, lamg))
      ∧ (∀ j < (qp.st k).nbu, (qp.st k).rev j = none → A.1 (pos qp .u k + j) = V ((qp.st k).nbu + (qp.st k).nbx + (qp.st k).ng + j) - V (0 + j))
      ∧ (∀ j < (qp.st k).nbu, ((qp.st k).rev j).isSome → A.2 (sbase qp k + j) = -V (0 + j) ∧ A.2 (sbase qp k + (qp.st k).nbu + j) = V ((qp.st k).nbu + (qp.st k).nbx + (qp.st k).ng + j)) := by
    refine ⟨_, rfl, ?_⟩
    rcases term with h | h
    · rw [if_pos h]
      exact ⟨SU.1, SU.2.1⟩
    · rw [h]
      exact ⟨fun j hj => by omega, fun j hj => by omega⟩
  obtain ⟨A, hA, A1, A2⟩ := SA
  rw [← hA] at hr
  have SX := setB_spec (buildG qp) k .bxsl .bxsu (pos qp .x k) (sbase qp k + 2 * mU (qp.st k)) (qp.st k).nbx (fun j => (qp.st k).rev ((qp.st k).nbu + j))
    (fun j => V ((qp.st k).nbu + j)) (fun j => V ((qp.st k).nbu + (qp.st k).nbx + (qp.st k).ng + (qp.st k).nbu + j)) A
    (by rw [G_map qp _ (by decide) k hk]; rfl) (by rw [G_map qp _ (by decide) k hk]; rfl) un.x
  dsimp only at SX
  generalize setB (buildG qp) k .bxsl .bxsu (List.range' (pos qp .x k) (qp.st k).nbx) ((List.range (qp.st k).nbx).map fun j => V ((qp.st k).nbu + j))
    ((List.range (qp.st k).nbx).map fun j => V ((qp.st k).nbu + (qp.st k).nbx + (qp.st k).ng + (qp.st k).nbu + j)) A = B at SX hr
  obtain ⟨B1, B2, B3, B4⟩ := SX
  have SG := setG_spec qp k hk (fun j => V ((qp.st k).nbu + (qp.st k).nbx + j)) (fun j => V ((qp.st k).nbu + (qp.st k).nbx + (qp.st k).ng + (qp.st k).nbu + (qp.st k).nbx + j)) B.2
  dsimp only at SG
  have r2 : r.2 = setG (buildG qp) k ((List.range (qp.st k).ng).map fun j => V ((qp.st k).nbu + (qp.st k).nbx + j))
    ((List.range (qp.st k).ng).map fun j => V ((qp.st k).nbu + (qp.st k).nbx + (qp.st k).ng + (qp.st k).nbu + (qp.st k).nbx + j)) B.2 := by rw [hr]
  rw [← r2] at SG
  obtain ⟨G1, G2, G3⟩ := SG
  have r1 : r.1 = put (put B.1 (List.range' (pos qp .sl k) (qp.st k).ns) ((List.range (qp.st k).ns).map fun j => -V (2 * ((qp.st k).nbu + (qp.st k).nbx + (qp.st k).ng) + j)))
      (List.range' (pos qp .su k) (qp.st k).ns) ((List.range (qp.st k).ns).map fun j => -V (2 * ((qp.st k).nbu + (qp.st k).nbx + (qp.st k).ng) + (qp.st k).ns + j)) := by
    rw [hr]
    dsimp only
    rw [List.map_map, List.map_map]
    rfl
  have px : pos qp .x k = start qp k := rfl
  have pu : pos qp .u k = start qp k + (qp.st k).nx := rfl
  have psl : pos qp .sl k = start qp k + ((qp.st k).nx + (qp.st k).nu) := rfl
  have psu : pos qp .su k = start qp k + ((qp.st k).nx + (qp.st k).nu + (qp.st k).ns) := rfl
  have mUle : (softIdx (qp.st k).nbx fun j => (qp.st k).rev ((qp.st k).nbu + j)).length = mX (qp.st k) := rfl
  rw [mUle] at B4
  have soU : ∀ j < (qp.st k).nbu, ((qp.st k).rev j).isSome → mU (qp.st k) = (qp.st k).nbu := by
    intro j hj hs
    rcases un.u with h | h
    · rw [h j hj] at hs; cases hs
    · unfold mU; rw [softIdx_all _ _ h, List.length_range]
  have soX : ∀ j < (qp.st k).nbx, ((qp.st k).rev ((qp.st k).nbu + j)).isSome → mX (qp.st k) = (qp.st k).nbx := by
    intro j hj hs
    rcases un.x with h | h
    · rw [h j hj] at hs; cases hs
    · unfold mX; rw [softIdx_all _ _ h, List.length_range]
  have w1 : ∀ q < start qp k + ((qp.st k).nx + (qp.st k).nu), r.1 q = B.1 q := fun q hq => by
    rw [r1, put_out _ _ _ _ (not_range' (by omega)), put_out _ _ _ _ (not_range' (by omega))]
  have mx : ∀ a b : K, 0 ≤ a → 0 ≤ b → (a = 0 ∨ b = 0) → max 0 (-(b - a)) = a ∧ max 0 (b - a) = b := by
    intro a b ha hb h
    rcases h with h | h
    · subst h
      rw [sub_zero]
      constructor
      · exact max_eq_left (by simpa using hb)
      · exact max_eq_right hb
    · subst h
      rw [zero_sub, neg_neg]
      constructor
      · exact max_eq_right ha
      · exact max_eq_left (by simpa using ha)
  rw [show 2 * ((qp.st k).nb + (qp.st k).ng + (qp.st k).ns) = ((qp.st k).nb + (qp.st k).ng) + ((qp.st k).nb + (qp.st k).ng) + (2 * (qp.st k).ns) by omega]
  rw [range_three ((qp.st k).nb + (qp.st k).ng) ((qp.st k).nb + (qp.st k).ng) (2 * (qp.st k).ns) (loAll qp k r.1 r.2) (upAll qp k r.1 r.2)
    (fun j => if j < (qp.st k).ns then -r.1 (pos qp .sl k + j) else -r.1 (pos qp .su k + (j - (qp.st k).ns))) V]
  · rw [List.append_assoc]
    congr 1
    rw [two_mul, List.range_add, List.map_append, List.map_map]
    congr 1
    · apply List.map_congr_left
      intro j hj
      rw [if_pos (List.mem_range.1 hj)]
    · apply List.map_congr_left
      intro j hj
      simp
  · intro j hj
    unfold loAll
    dsimp only
    by_cases h1 : j < (qp.st k).nbu
    · rw [if_pos h1]
      unfold bLo
      rcases hs : (qp.st k).rev j with _ | i
      · have c := comp j (by omega) hs
        have a := A1 j h1 hs
        rw [← B3 _ (by omega), ← w1 _ (by omega), ← eb, zero_add] at a
        rw [if_neg (by simp), a]
        exact (mx _ _ c.1 c.2.1 c.2.2).1.symm
      · have c := (A2 j h1 (by rw [hs]; rfl)).1
        have m := soU j h1 (by rw [hs]; rfl)
        rw [← B4 _ (by omega), ← G3 _ (by omega), zero_add] at c
        rw [if_pos (by simp), c, neg_neg]
    rw [if_neg h1]
    by_cases h2 : j < (qp.st k).nb
    · rw [if_pos h2]
      obtain ⟨i, rfl⟩ := Nat.exists_eq_add_of_le (Nat.le_of_not_lt h1)
      rw [Nat.add_sub_cancel_left]
      unfold bLo
      dsimp only
      by_cases hs : (qp.st k).rev ((qp.st k).nbu + i) = none
      · have c := comp _ h2 hs
        have a := B1 i (by omega) hs
        rw [← w1 _ (by omega), ← eb, Nat.add_assoc _ _ i] at a
        rw [if_neg (by rw [hs]; simp), a]
        exact (mx _ _ c.1 c.2.1 c.2.2).1.symm
      · have hs := Option.isSome_iff_ne_none.2 hs
        have c := (B2 i (by omega) hs).1
        have m := soX i (by omega) hs
        rw [← G3 _ (by omega)] at c
        rw [if_pos hs, c, neg_neg]
    rw [if_neg h2]
    obtain ⟨i, rfl⟩ := Nat.exists_eq_add_of_le (Nat.le_of_not_lt h2)
    rw [Nat.add_sub_cancel_left]
    unfold gLo
    rcases hs : (qp.st k).rev ((qp.st k).nb + i) with _ | i'
    · have z := zero i (by omega) hs
      have a := G1 i (by omega) hs
      rw [← eb, Nat.add_assoc _ (qp.st k).nbu, ← eb, z.1, z.2, sub_zero] at a
      rw [if_neg (by simp), a, z.1, neg_zero, max_self]
    · have c := (G2 i (by omega) (by rw [hs]; rfl)).1
      rw [if_pos (by simp), c, neg_neg, eb]
  · intro j hj
    unfold upAll
    dsimp only
    by_cases h1 : j < (qp.st k).nbu
    · rw [if_pos h1]
      unfold bUp
      rcases hs : (qp.st k).rev j with _ | i
      · have c := comp j (by omega) hs
        have a := A1 j h1 hs
        rw [← B3 _ (by omega), ← w1 _ (by omega), ← eb, zero_add] at a
        rw [if_neg (by simp), a]
        exact (mx _ _ c.1 c.2.1 c.2.2).2.symm
      · have c := (A2 j h1 (by rw [hs]; rfl)).2
        have m := soU j h1 (by rw [hs]; rfl)
        rw [← B4 _ (by omega), ← G3 _ (by omega)] at c
        rw [if_pos (by simp), c, eb]
    rw [if_neg h1]
    by_cases h2 : j < (qp.st k).nb
    · rw [if_pos h2]
      obtain ⟨i, rfl⟩ := Nat.exists_eq_add_of_le (Nat.le_of_not_lt h1)
      rw [Nat.add_sub_cancel_left]
      unfold bUp
      dsimp only
      by_cases hs : (qp.st k).rev ((qp.st k).nbu + i) = none
      · have c := comp _ h2 hs
        have a := B1 i (by omega) hs
        rw [← w1 _ (by omega), ← eb, Nat.add_assoc _ _ i] at a
        rw [if_neg (by rw [hs]; simp), a]
        exact (mx _ _ c.1 c.2.1 c.2.2).2.symm
      · have hs := Option.isSome_iff_ne_none.2 hs
        have c := (B2 i (by omega) hs).2
        have m := soX i (by omega) hs
        rw [← G3 _ (by omega), ← eb] at c
        rw [if_pos hs, c]
        congr 1
        omega
    rw [if_neg h2]
    obtain ⟨i, rfl⟩ := Nat.exists_eq_add_of_le (Nat.le_of_not_lt h2)
    rw [Nat.add_sub_cancel_left]
    unfold gUp
    rcases hs : (qp.st k).rev ((qp.st k).nb + i) with _ | i'
    · have z := zero i (by omega) hs
      have a := G1 i (by omega) hs
      rw [← eb, Nat.add_assoc _ (qp.st k).nbu, ← eb, z.1, z.2, sub_zero] at a
      rw [if_neg (by simp), a, ← Nat.add_assoc, z.2, max_self]
    · have c := (G2 i (by omega) (by rw [hs]; rfl)).2
      rw [if_pos (by simp), c, eb]
      congr 1
      omega
  · intro j hj
    by_cases h : j < (qp.st k).ns
    · rw [if_pos h, r1, put_out _ _ _ _ (not_range' (by omega)), put_range' _ _ _ _ _ h, neg_neg]
      congr 1
      omega
    · obtain ⟨i, rfl⟩ := Nat.exists_eq_add_of_le (Nat.le_of_not_lt h)
      rw [if_neg h, Nat.add_sub_cancel_left, r1, put_range' _ _ _ _ _ (by omega), neg_neg]
      congr 1
      omega

omit [Field K] [LinearOrder K] in
theorem slice_length (v : List K) (a n : Nat) (h : a + n ≤ v.length) : (slice v a n).length = n := by
  unfold slice
  rw [List.length_take, List.length_drop]
  omega

theorem lamFits_ok (qp : Qp K) (k : Nat) (hk : k ≤ qp.N) (un : (qp.st k).Uniform) (v : List K)
    (hv : v.length = 2 * ((qp.st k).nb + (qp.st k).ng + (qp.st k).ns)) : lamFits qp k v = true := by
  have Lg : ((buildG qp).map .g k).length + ((buildG qp).map .gsl k).length = (qp.st k).ng := by
    rw [G_map qp .g (by decide) k hk, G_map qp .gsl (by decide) k hk]
    have := (hs_perm (qp.st k) (qp.st k).ng).length_eq
    rw [List.length_append, List.length_range] at this
    simp only [emap, List.length_map]
    exact this
  have Ls : (((buildW qp).lmap .sl)[k]?.getD []).length = (qp.st k).ns := by
    rw [lmap_get qp _ k hk, List.length_range']; rfl
  have eb : (qp.st k).nb = (qp.st k).nbu + (qp.st k).nbx := rfl
  have EU : (buildG qp).map .busl k = List.range' (sbase qp k) (softIdx (qp.st k).nbu (qp.st k).rev).length := G_map qp .busl (by decide) k hk
  have EX : (buildG qp).map .bxsl k = List.range' (sbase qp k + 2 * mU (qp.st k)) (softIdx (qp.st k).nbx fun j => (qp.st k).rev ((qp.st k).nbu + j)).length := G_map qp .bxsl (by decide) k hk
  have FU : (if (buildG qp).map .busl k = [] then ((buildW qp).lmap .u)[k]?.getD [] else (buildG qp).map .busl k).length = (qp.st k).nbu := by
    rcases un.u with h | h
    · rw [EU, softIdx_none _ _ h, List.length_nil, List.range'_zero, if_pos rfl, lmap_get qp _ k hk, List.length_range']; rfl
    · rw [EU, softIdx_all _ _ h, List.length_range]
      by_cases h0 : (qp.st k).nbu = 0
      · rw [h0, List.range'_zero, if_pos rfl, lmap_get qp _ k hk, List.length_range']; exact h0
      · rw [if_neg (by rw [List.range'_eq_nil_iff]; exact h0), List.length_range']
  have FX : (if (buildG qp).map .bxsl k = [] then ((buildW qp).lmap .x)[k]?.getD [] else (buildG qp).map .bxsl k).length = (qp.st k).nbx := by
    rcases un.x with h | h
    · rw [EX, softIdx_none _ _ h, List.length_nil, List.range'_zero, if_pos rfl, lmap_get qp _ k hk, List.length_range']; rfl
    · rw [EX, softIdx_all _ _ h, List.length_range]
      by_cases h0 : (qp.st k).nbx = 0
      · rw [h0, List.range'_zero, if_pos rfl, lmap_get qp _ k hk, List.length_range']; exact h0
      · rw [if_neg (by rw [List.range'_eq_nil_iff]; exact h0), List.length_range']
  unfold lamFits
  dsimp only
  rw [Lg, Ls, FU, FX]
  simp only [Bool.and_eq_true, Bool.or_eq_true, beq_iff_eq]
  refine ⟨⟨⟨⟨⟨Or.inr ⟨?_, ?_⟩, ?_, ?_⟩, ?_⟩, ?_⟩, ?_⟩, ?_⟩ <;> exact slice_length _ _ _ (by omega)

end Acados.CasadiQp
