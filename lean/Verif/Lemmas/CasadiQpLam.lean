import Verif.Lemmas.CasadiQpMap
/-! Lemmas for C94: multipliers. -/
namespace Acados.CasadiQp
open Finset
variable {K : Type} [Field K] [LinearOrder K]

/-! ### sorting by indices -/

theorem countP_range (n r : Nat) (h : r ≤ n) : (List.range n).countP (fun j => decide (j < r)) = r := by
  induction n with
  | zero => simp at h; subst h; rfl
  | succ n ih =>
    rw [List.range_succ, List.countP_append]
    by_cases c : r ≤ n
    · rw [ih c]; simp [List.countP_cons]; omega
    · have : r = n + 1 := by omega
      subst this
      have e : (List.range n).countP (fun j => decide (j < n + 1)) = n := by
        rw [List.countP_eq_length.2, List.length_range]
        intro a ha
        have := List.mem_range.1 ha
        simp; omega
      rw [e]; simp [List.countP_cons]

theorem rank_perm (L : List Nat) (n : Nat) (hL : L.Perm (List.range n)) (P : Nat → Nat) (mono : ∀ i j, i < j → P i < P j) (r : Nat) (h : r ≤ n) :
    rank (L.map P) (P r) = r := by
  unfold rank
  rw [List.countP_map, (hL.countP_eq _)]
  rw [← countP_range n r h]
  apply List.countP_congr
  intro j hj
  simp only [Function.comp, decide_eq_true_eq]
  rw [countP_range n r h]
  constructor
  · intro hh
    by_contra hc
    rcases Nat.lt_or_ge r j with h1 | h1
    · have := mono r j h1; omega
    · have : j = r := by omega
      subst this; omega
  · intro hh
    exact mono j r hh

theorem sortBy_perm (L : List Nat) (n : Nat) (hL : L.Perm (List.range n)) (P : Nat → Nat) (mono : ∀ i j, i < j → P i < P j) (v : Nat → K) :
    sortBy (L.map P) (L.map v) = (List.range n).map v := by
  unfold sortBy
  rw [List.length_map, hL.length_eq, List.length_range]
  apply List.map_congr_left
  intro r hr
  have hr' := List.mem_range.1 hr
  have ez : (L.map P).zip (L.map v) = L.map fun j => (P j, v j) := by
    rw [List.zip_map']
  rw [ez, List.find?_map]
  rcases hf : L.find? ((fun q : Nat × K => rank (L.map P) q.1 == r) ∘ fun j => (P j, v j)) with _ | j
  · exfalso
    have := List.find?_eq_none.1 hf r (hL.mem_iff.2 hr)
    apply this
    simp only [Function.comp, beq_iff_eq]
    exact rank_perm L n hL P mono r (by omega)
  · have h1 := List.find?_some hf
    have h2 := List.mem_of_find?_eq_some hf
    simp only [Function.comp, beq_iff_eq] at h1
    rw [rank_perm L n hL P mono j (le_of_lt (List.mem_range.1 (hL.mem_iff.1 h2)))] at h1
    subst h1
    rfl

/-! ### linear constraints -/

omit [Field K] [LinearOrder K] in
theorem hs_perm (s : Stage K) (n : Nat) : (hardG s n ++ softG s n).Perm (List.range n) := by
  unfold hardG softG
  have := List.filter_append_perm (fun j => (s.rev (s.nb + j)).isNone) (List.range n)
  refine List.Perm.trans ?_ this
  apply List.Perm.append_left
  rw [List.filter_congr]
  intro j _
  rcases s.rev (s.nb + j) with _ | i <;> rfl

omit [Field K] [LinearOrder K] in
theorem cum_glen_mono (s : Stage K) (i j : Nat) (h : i < j) : cum (glen s) i + glen s i ≤ cum (glen s) j := by
  rw [← cum_succ]
  obtain ⟨d, rfl⟩ : ∃ d, j = i + 1 + d := ⟨j - (i + 1), by omega⟩
  clear h
  induction d with
  | zero => exact le_rfl
  | succ d ih => rw [← Nat.add_assoc, cum_succ _ (i + 1 + d)]; omega

omit [Field K] [LinearOrder K] in
theorem gpos_step (s : Stage K) (i j : Nat) (h : i < j) : gpos s i + glen s i ≤ gpos s j := by
  have := cum_glen_mono s i j h
  unfold gpos; omega

omit [Field K] [LinearOrder K] in
theorem glen_pos (s : Stage K) (j : Nat) : 0 < glen s j := by unfold glen; split <;> omega

omit [Field K] [LinearOrder K] in
theorem gpos_mono (s : Stage K) (o i j : Nat) (h : i < j) : o + gpos s i < o + gpos s j := by
  have := gpos_step s i j h
  have := glen_pos s i
  omega

/-- multipliers of linear constraint `j` of a stage whose rows begin at `o` -/
def gLo (s : Stage K) (o : Nat) (lamg : Nat → K) (j : Nat) : K :=
  if (s.rev (s.nb + j)).isSome then -lamg (o + gpos s j) else max 0 (-lamg (o + gpos s j))
def gUp (s : Stage K) (o : Nat) (lamg : Nat → K) (j : Nat) : K :=
  if (s.rev (s.nb + j)).isSome then lamg (o + gpos s j + 1) else max 0 (lamg (o + gpos s j))

theorem lamG_eq (qp : Qp K) (k : Nat) (hk : k ≤ qp.N) (lamg : Nat → K) :
    lamG (buildG qp) k lamg = ((List.range (qp.st k).ng).map (gLo (qp.st k) (sbase qp k) lamg), (List.range (qp.st k).ng).map (gUp (qp.st k) (sbase qp k) lamg)) := by
  unfold lamG
  have E1 : (buildG qp).map .g k = (hardG (qp.st k) (qp.st k).ng).map fun j => sbase qp k + gpos (qp.st k) j := G_map qp .g (by decide) k hk
  have E2 : (buildG qp).map .gsl k = (softG (qp.st k) (qp.st k).ng).map fun j => sbase qp k + gpos (qp.st k) j := G_map qp .gsl (by decide) k hk
  have E3 : (buildG qp).map .gsu k = (softG (qp.st k) (qp.st k).ng).map fun j => sbase qp k + gpos (qp.st k) j + 1 := G_map qp .gsu (by decide) k hk
  rw [E1, E2, E3]
  clear E1 E2 E3
  dsimp only
  generalize qp.st k = s
  generalize sbase qp k = o
  have hard : ∀ j ∈ hardG s s.ng, (s.rev (s.nb + j)).isSome = false := by
    intro j hj
    have := (List.mem_filter.1 hj).2
    rcases hr : s.rev (s.nb + j) with _ | i
    · rfl
    · rw [hr] at this; cases this
  have soft : ∀ j ∈ softG s s.ng, (s.rev (s.nb + j)).isSome = true := fun j hj => (List.mem_filter.1 hj).2
  have hp := hs_perm s s.ng
  have m := gpos_mono s o
  by_cases h : List.map (fun j => o + gpos s j) (softG s s.ng) = []
  · rw [if_pos h]
    have h0 : softG s s.ng = [] := List.map_eq_nil_iff.1 h
    have h1 : hardG s s.ng = List.range s.ng := by
      unfold hardG
      rw [List.filter_eq_self]
      intro j hj
      have : j ∉ softG s s.ng := by rw [h0]; simp
      rcases hr : s.rev (s.nb + j) with _ | i
      · rfl
      · exfalso
        apply this
        exact List.mem_filter.2 ⟨hj, by rw [hr]; rfl⟩
    rw [h1] at hard ⊢
    unfold pick
    simp only [List.map_map]
    congr 1 <;> apply List.map_congr_left <;> intro j hj <;> simp [gLo, gUp, hard j hj]
  · rw [if_neg h]
    unfold pick
    simp only [List.map_map]
    have e1 : (List.map ((fun a => max 0 (-a)) ∘ lamg ∘ fun j => o + gpos s j) (hardG s s.ng) ++ List.map ((fun a => -a) ∘ lamg ∘ fun j => o + gpos s j) (softG s s.ng))
        = (hardG s s.ng ++ softG s s.ng).map (gLo s o lamg) := by
      rw [List.map_append]
      congr 1 <;> apply List.map_congr_left <;> intro j hj
      · simp [gLo, hard j hj]
      · simp [gLo, soft j hj]
    have e2 : (List.map ((fun a => max 0 a) ∘ lamg ∘ fun j => o + gpos s j) (hardG s s.ng) ++ List.map (lamg ∘ fun j => o + gpos s j + 1) (softG s s.ng))
        = (hardG s s.ng ++ softG s s.ng).map (gUp s o lamg) := by
      rw [List.map_append]
      congr 1 <;> apply List.map_congr_left <;> intro j hj
      · simp [gUp, hard j hj]
      · simp [gUp, soft j hj]
    rw [e1, e2, ← List.map_append, sortBy_perm _ _ hp _ m, sortBy_perm _ _ hp _ m]

/-! ### bounds -/

/-- multipliers of bound `j`: `i` the index of the first one in `lam_w`, `o` of the first row, `n` the number of bounds -/
def bLo (rev : Nat → Option Nat) (i o : Nat) (lamw lamg : Nat → K) (j : Nat) : K :=
  if (rev j).isSome then -lamg (o + j) else max 0 (-lamw (i + j))
def bUp (n : Nat) (rev : Nat → Option Nat) (i o : Nat) (lamw lamg : Nat → K) (j : Nat) : K :=
  if (rev j).isSome then lamg (o + n + j) else max 0 (lamw (i + j))

theorem softIdx_all (n : Nat) (rev : Nat → Option Nat) (h : ∀ j < n, (rev j).isSome) : softIdx n rev = List.range n := by
  unfold softIdx
  rw [List.filter_eq_self]
  exact fun j hj => h j (List.mem_range.1 hj)

theorem softIdx_none (n : Nat) (rev : Nat → Option Nat) (h : ∀ j < n, rev j = none) : softIdx n rev = [] := by
  unfold softIdx
  rw [List.filter_eq_nil_iff]
  intro j hj
  rw [h j (List.mem_range.1 hj)]
  simp

theorem map_range' {α : Type} (f : Nat → α) (a n : Nat) : (List.range' a n).map f = (List.range n).map fun j => f (a + j) := by
  rw [List.range'_eq_map_range, List.map_map]
  rfl

theorem lamB_eq (g : G K) (k : Nat) (kl ku : Key) (i o n : Nat) (rev : Nat → Option Nat) (lamw lamg : Nat → K)
    (h1 : g.map kl k = List.range' o (softIdx n rev).length) (h2 : g.map ku k = List.range' (o + (softIdx n rev).length) (softIdx n rev).length)
    (all : (∀ j < n, rev j = none) ∨ ∀ j < n, (rev j).isSome) :
    lamB g k kl ku (List.range' i n) lamw lamg = ((List.range n).map (bLo rev i o lamw lamg), (List.range n).map (bUp n rev i o lamw lamg)) := by
  unfold lamB
  rw [h1, h2]
  rcases all with h | h
  · rw [softIdx_none n rev h, List.length_nil, List.range'_zero, if_pos rfl]
    unfold pick
    rw [map_range', List.map_map, List.map_map]
    congr 1 <;> apply List.map_congr_left <;> intro j hj <;> simp [bLo, bUp, h j (List.mem_range.1 hj)]
  · rw [softIdx_all n rev h, List.length_range]
    split
    · rename_i hn
      rw [List.range'_eq_nil_iff] at hn
      subst hn
      rfl
    · unfold pick
      rw [map_range', map_range', List.map_map]
      congr 1 <;> apply List.map_congr_left <;> intro j hj <;> simp [bLo, bUp, h j (List.mem_range.1 hj)]

/-- lower and upper multipliers of all constraints of a stage -/
def loAll (qp : Qp K) (k : Nat) (lamw lamg : Nat → K) (j : Nat) : K :=
  let s := qp.st k
  if j < s.nbu then bLo s.rev (pos qp .u k) (sbase qp k) lamw lamg j
  else if j < s.nb then bLo (fun j => s.rev (s.nbu + j)) (pos qp .x k) (sbase qp k + 2 * mU s) lamw lamg (j - s.nbu)
  else gLo s (sbase qp k) lamg (j - s.nb)
def upAll (qp : Qp K) (k : Nat) (lamw lamg : Nat → K) (j : Nat) : K :=
  let s := qp.st k
  if j < s.nbu then bUp s.nbu s.rev (pos qp .u k) (sbase qp k) lamw lamg j
  else if j < s.nb then bUp s.nbx (fun j => s.rev (s.nbu + j)) (pos qp .x k) (sbase qp k + 2 * mU s) lamw lamg (j - s.nbu)
  else gUp s (sbase qp k) lamg (j - s.nb)

/-- bounds of one kind are all hard or all soft -/
structure Stage.Uniform (s : Stage K) : Prop where
  u : (∀ j < s.nbu, s.rev j = none) ∨ ∀ j < s.nbu, (s.rev j).isSome
  x : (∀ j < s.nbx, s.rev (s.nbu + j) = none) ∨ ∀ j < s.nbx, (s.rev (s.nbu + j)).isSome

theorem range_three {α : Type} (a b c : Nat) (f g h F : Nat → α) (h1 : ∀ j < a, F j = f j) (h2 : ∀ j < b, F (a + j) = g j) (h3 : ∀ j < c, F (a + b + j) = h j) :
    (List.range (a + b + c)).map F = (List.range a).map f ++ (List.range b).map g ++ (List.range c).map h := by
  rw [List.range_add, List.range_add, List.map_append, List.map_append, List.map_map, List.map_map]
  congr 1
  · congr 1
    · exact List.map_congr_left fun j hj => h1 j (List.mem_range.1 hj)
    · exact List.map_congr_left fun j hj => h2 j (List.mem_range.1 hj)
  · exact List.map_congr_left fun j hj => h3 j (List.mem_range.1 hj)

theorem getLam_eq (qp : Qp K) (k : Nat) (hk : k ≤ qp.N) (un : (qp.st k).Uniform) (lamw lamg : Nat → K) :
    getLam qp lamw lamg k = (List.range ((qp.st k).nb + (qp.st k).ng)).map (loAll qp k lamw lamg)
      ++ (List.range ((qp.st k).nb + (qp.st k).ng)).map (upAll qp k lamw lamg)
      ++ ((List.range (qp.st k).ns).map fun j => -lamw (pos qp .sl k + j)) ++ (List.range (qp.st k).ns).map fun j => -lamw (pos qp .su k + j) := by
  unfold getLam
  dsimp only
  rw [lmap_get qp _ k hk, lmap_get qp _ k hk, lmap_get qp _ k hk, lmap_get qp _ k hk, lamG_eq qp k hk]
  simp only [nlam]
  rw [lamB_eq (buildG qp) k .busl .busu (pos qp .u k) (sbase qp k) (qp.st k).nbu (qp.st k).rev lamw lamg
      (by rw [G_map qp _ (by decide) k hk]; rfl) (by rw [G_map qp _ (by decide) k hk]; rfl) un.u,
    lamB_eq (buildG qp) k .bxsl .bxsu (pos qp .x k) (sbase qp k + 2 * mU (qp.st k)) (qp.st k).nbx (fun j => (qp.st k).rev ((qp.st k).nbu + j)) lamw lamg
      (by rw [G_map qp _ (by decide) k hk]; rfl) (by rw [G_map qp _ (by decide) k hk]; rfl) un.x]
  unfold pick
  rw [map_range', map_range']
  simp only [List.map_map]
  unfold Stage.nb
  rw [range_three (qp.st k).nbu (qp.st k).nbx (qp.st k).ng (bLo (qp.st k).rev (pos qp .u k) (sbase qp k) lamw lamg)
      (bLo (fun j => (qp.st k).rev ((qp.st k).nbu + j)) (pos qp .x k) (sbase qp k + 2 * mU (qp.st k)) lamw lamg) (gLo (qp.st k) (sbase qp k) lamg) (loAll qp k lamw lamg)
      (fun j hj => by unfold loAll; dsimp only; rw [if_pos hj])
      (fun j hj => by unfold loAll Stage.nb; dsimp only; rw [if_neg (by omega), if_pos (by omega), Nat.add_sub_cancel_left])
      (fun j hj => by unfold loAll Stage.nb; dsimp only; rw [if_neg (by omega), if_neg (by omega), Nat.add_sub_cancel_left]),
    range_three (qp.st k).nbu (qp.st k).nbx (qp.st k).ng (bUp (qp.st k).nbu (qp.st k).rev (pos qp .u k) (sbase qp k) lamw lamg)
      (bUp (qp.st k).nbx (fun j => (qp.st k).rev ((qp.st k).nbu + j)) (pos qp .x k) (sbase qp k + 2 * mU (qp.st k)) lamw lamg) (gUp (qp.st k) (sbase qp k) lamg) (upAll qp k lamw lamg)
      (fun j hj => by unfold upAll; dsimp only; rw [if_pos hj])
      (fun j hj => by unfold upAll Stage.nb; dsimp only; rw [if_neg (by omega), if_pos (by omega), Nat.add_sub_cancel_left])
      (fun j hj => by unfold upAll Stage.nb; dsimp only; rw [if_neg (by omega), if_neg (by omega), Nat.add_sub_cancel_left])]
  simp only [List.append_assoc]
  rfl

end Acados.CasadiQp
