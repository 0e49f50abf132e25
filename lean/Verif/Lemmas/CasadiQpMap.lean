import Verif.Lemmas.CasadiQp
/-! Lemmas for C94: lists of indices of constraints. -/
namespace Acados.CasadiQp
open Finset
variable {K : Type} [Field K] [LinearOrder K]

/-- sum of lengths of the first lists -/
def cum (len : Nat → Nat) (n : Nat) : Nat := ∑ j ∈ range n, len j

theorem cum_succ (len : Nat → Nat) (n : Nat) : cum len (n + 1) = cum len n + len n := sum_range_succ _ _

theorem flat_length {α : Type} (l : Nat → List α) (n : Nat) : ((List.range n).flatMap l).length = cum (fun k => (l k).length) n := by
  induction n with
  | zero => rfl
  | succ n ih => rw [List.range_succ, List.flatMap_append, List.length_append, ih, cum_succ]; simp

theorem flat_get {α : Type} (l : Nat → List α) (n k i : Nat) (hk : k < n) (hi : i < (l k).length) :
    ((List.range n).flatMap l)[cum (fun k => (l k).length) k + i]? = (l k)[i]? := by
  induction n with
  | zero => omega
  | succ n ih =>
    rw [List.range_succ, List.flatMap_append]
    have e : [n].flatMap l = l n := by simp
    rw [e]
    rcases Nat.lt_succ_iff_lt_or_eq.1 hk with h | rfl
    · have hl : cum (fun k => (l k).length) k + i < ((List.range n).flatMap l).length := by
        by_contra hc
        have := ih h
        rw [List.getElem?_eq_none (by omega), List.getElem?_eq_getElem hi] at this
        cases this
      rw [List.getElem?_append_left hl, ih h]
    · rw [List.getElem?_append_right (by rw [flat_length]; omega), flat_length, Nat.add_sub_cancel_left]

/-- number of rows of a linear constraint -/
def glen (s : Stage K) (j : Nat) : Nat := if (s.rev (s.nb + j)).isSome then 2 else 1

omit [LinearOrder K] in
theorem linRows_length (s : Stage K) (k j : Nat) : (linRows s k j).length = glen s j := by
  unfold linRows glen
  rcases s.rev (s.nb + j) with _ | i <;> rfl

/-- numbers of soft bounds -/
def mU (s : Stage K) : Nat := (softIdx s.nbu s.rev).length
def mX (s : Stage K) : Nat := (softIdx s.nbx fun j => s.rev (s.nbu + j)).length

/-- first row of linear constraint `j` in its stage -/
def gpos (s : Stage K) (j : Nat) : Nat := 2 * mU s + 2 * mX s + cum (glen s) j

def hardG (s : Stage K) (n : Nat) : List Nat := (List.range n).filter fun j => (s.rev (s.nb + j)).isNone
def softG (s : Stage K) (n : Nat) : List Nat := (List.range n).filter fun j => (s.rev (s.nb + j)).isSome

/-- lists of indices of a stage whose rows begin at `o` -/
def emap (s : Stage K) (o : Nat) : Key → List Nat
  | .pi => []
  | .busl => List.range' o (mU s)
  | .busu => List.range' (o + mU s) (mU s)
  | .bxsl => List.range' (o + 2 * mU s) (mX s)
  | .bxsu => List.range' (o + 2 * mU s + mX s) (mX s)
  | .g => (hardG s s.ng).map fun j => o + gpos s j
  | .gsl => (softG s s.ng).map fun j => o + gpos s j
  | .gsu => (softG s s.ng).map fun j => o + gpos s j + 1

omit [LinearOrder K] in
theorem addSoft_map (a : G K) (k n : Nat) (f : Fld) (kl ku : Key) (h : kl ≠ ku) (rev : Nat → Option Nat) (ml mu : Nat → Bool) (l u : Nat → K) :
    (addSoft a k n f kl ku rev ml mu l u).off = a.off + 2 * (softIdx n rev).length ∧
    ∀ key k', (addSoft a k n f kl ku rev ml mu l u).map key k' =
      if key = kl ∧ k' = k then a.map kl k ++ List.range' a.off (softIdx n rev).length
      else if key = ku ∧ k' = k then a.map ku k ++ List.range' (a.off + (softIdx n rev).length) (softIdx n rev).length
      else a.map key k' := by
  unfold addSoft
  split
  · rename_i e
    rw [e]
    refine ⟨by simp, fun key k' => ?_⟩
    simp only [List.length_nil, List.range'_zero, List.append_nil]
    split
    · rename_i hh; rw [hh.1, hh.2]
    · split
      · rename_i hh; rw [hh.1, hh.2]
      · rfl
  · have e1 : (softLower k n f rev ml l).length = (softIdx n rev).length := by simp [softLower]
    have e2 : (softUpper k n f rev mu u).length = (softIdx n rev).length := by simp [softUpper]
    refine ⟨?_, fun key k' => ?_⟩
    · simp only [app, e1, e2]; omega
    · simp only [app, e1, e2]
      by_cases c1 : key = kl ∧ k' = k
      · rw [if_pos c1, if_neg (by rintro ⟨hh, -⟩; exact h (c1.1.symm.trans hh)), if_pos c1]
      · rw [if_neg c1]
        by_cases c2 : key = ku ∧ k' = k
        · rw [if_pos c2, if_neg (by rintro ⟨hh, -⟩; exact h hh.symm), if_neg c1, if_pos c2]
        · rw [if_neg c2, if_neg c2, if_neg c1]

/-- the loop over linear constraints -/
def lmapOf (s : Stage K) (o n : Nat) : Key → List Nat
  | .g => (hardG s n).map fun j => o + cum (glen s) j
  | .gsl => (softG s n).map fun j => o + cum (glen s) j
  | .gsu => (softG s n).map fun j => o + cum (glen s) j + 1
  | _ => []

omit [LinearOrder K] in
theorem lin_map (s : Stage K) (k : Nat) (a : G K) (n : Nat) :
    ((List.range n).foldl (addLin s k) a).off = a.off + cum (glen s) n ∧
    ∀ key k', ((List.range n).foldl (addLin s k) a).map key k' = if k' = k then a.map key k ++ lmapOf s a.off n key else a.map key k' := by
  induction n with
  | zero =>
    refine ⟨rfl, fun key k' => ?_⟩
    split
    · rename_i h; subst h
      cases key <;> simp [lmapOf, hardG, softG]
    · rfl
  | succ n ih =>
    obtain ⟨ih1, ih2⟩ := ih
    rw [List.range_succ, List.foldl_append, List.foldl_cons, List.foldl_nil]
    generalize (List.range n).foldl (addLin s k) a = b at ih1 ih2
    have eH : hardG s (n + 1) = hardG s n ++ if (s.rev (s.nb + n)).isNone then [n] else [] := by
      unfold hardG; rw [List.range_succ, List.filter_append]; congr 1
      simp only [List.filter_cons, List.filter_nil]
    have eS : softG s (n + 1) = softG s n ++ if (s.rev (s.nb + n)).isSome then [n] else [] := by
      unfold softG; rw [List.range_succ, List.filter_append]; congr 1
      simp only [List.filter_cons, List.filter_nil]
    unfold addLin
    rcases hr : s.rev (s.nb + n) with _ | i
    · rw [hr] at eH eS
      refine ⟨?_, fun key k' => ?_⟩
      · simp only [app, ih1, cum_succ, glen, hr]; simp; omega
      · simp only [app]
        by_cases hk : k' = k
        · subst hk
          cases key <;> simp [lmapOf, ih2, ih1, eH, eS]
        · simp [hk, ih2]
    · rw [hr] at eH eS
      refine ⟨?_, fun key k' => ?_⟩
      · simp only [app, ih1, cum_succ, glen, hr]; simp; omega
      · simp only [app]
        by_cases hk : k' = k
        · subst hk
          cases key <;> simp [lmapOf, ih2, ih1, eH, eS]
        · simp [hk, ih2]

omit [LinearOrder K] in
theorem stageRows_length (s : Stage K) (k : Nat) : (stageRows s k).length = gpos s s.ng := by
  unfold stageRows bndRows gpos
  rw [List.length_append, flat_length]
  simp only [linRows_length, List.length_append, softLower, softUpper, List.length_map, mU, mX]
  show _ + cum (glen s) s.ng = _ + cum (glen s) s.ng
  omega

omit [LinearOrder K] in
theorem addStage_map (s : Stage K) (k : Nat) (a : G K) :
    (addStage s k a).off = a.off + (stageRows s k).length ∧
    ∀ key k', (addStage s k a).map key k' = if k' = k then a.map key k ++ emap s a.off key else a.map key k' := by
  unfold addStage
  dsimp only
  obtain ⟨h1, h2⟩ := addSoft_map a k s.nbu .u .busl .busu (by decide) s.rev s.lbuM s.ubuM s.lbu s.ubu
  generalize addSoft a k s.nbu .u .busl .busu s.rev s.lbuM s.ubuM s.lbu s.ubu = b at h1 h2
  obtain ⟨h3, h4⟩ := addSoft_map b k s.nbx .x .bxsl .bxsu (by decide) (fun j => s.rev (s.nbu + j)) s.lbxM s.ubxM s.lbx s.ubx
  generalize addSoft b k s.nbx .x .bxsl .bxsu (fun j => s.rev (s.nbu + j)) s.lbxM s.ubxM s.lbx s.ubx = c at h3 h4
  obtain ⟨h5, h6⟩ := lin_map s k c s.ng
  rw [show (softIdx s.nbu s.rev).length = mU s from rfl] at h1 h2
  rw [show (softIdx s.nbx fun j => s.rev (s.nbu + j)).length = mX s from rfl] at h3 h4
  refine ⟨?_, fun key k' => ?_⟩
  · rw [h5, h3, h1, stageRows_length]; unfold gpos; omega
  · rw [h6]
    by_cases hk : k' = k
    · subst hk
      rw [if_pos rfl, if_pos rfl, h4]
      cases key
      all_goals simp [h2, h1, h3, lmapOf, emap, gpos, Nat.add_assoc]
    · rw [if_neg hk, if_neg hk, h4, if_neg (by tauto), if_neg (by tauto), h2, if_neg (by tauto), if_neg (by tauto)]

/-- first row of the constraints of a stage -/
def sbase (qp : Qp K) (k : Nat) : Nat := cum (fun k => (qp.st (k + 1)).nx) qp.N + cum (fun k => (stageRows (qp.st k) k).length) k

omit [LinearOrder K] in
theorem dyn_map (qp : Qp K) (n : Nat) :
    let a := (List.range n).foldl (fun a k => app a .pi k (dynRows (qp.st k) (qp.st (k + 1)).nx k)) ⟨[], 0, fun _ _ => []⟩
    a.off = cum (fun k => (qp.st (k + 1)).nx) n ∧
    ∀ key k', a.map key k' = if key = .pi ∧ k' < n then List.range' (cum (fun k => (qp.st (k + 1)).nx) k') (qp.st (k' + 1)).nx else [] := by
  induction n with
  | zero => exact ⟨rfl, fun key k' => by simp⟩
  | succ n ih =>
    dsimp only at ih ⊢
    rw [List.range_succ, List.foldl_append, List.foldl_cons, List.foldl_nil]
    generalize (List.range n).foldl (fun a k => app a .pi k (dynRows (qp.st k) (qp.st (k + 1)).nx k)) ⟨[], 0, fun _ _ => []⟩ = b at ih
    obtain ⟨h1, h2⟩ := ih
    have e : (dynRows (qp.st n) (qp.st (n + 1)).nx n).length = (qp.st (n + 1)).nx := by simp [dynRows]
    refine ⟨?_, fun key k' => ?_⟩
    · simp only [app, e, h1, cum_succ]
    · simp only [app, e, h1, h2]
      by_cases c : key = .pi ∧ k' = n
      · obtain ⟨rfl, rfl⟩ := c
        simp
      · rw [if_neg c]
        by_cases c2 : key = .pi ∧ k' < n
        · rw [if_pos c2, if_pos ⟨c2.1, by omega⟩]
        · rw [if_neg c2, if_neg]
          rintro ⟨c3, c4⟩
          by_cases c5 : k' = n
          · exact c ⟨c3, c5⟩
          · exact c2 ⟨c3, by omega⟩

omit [LinearOrder K] in
theorem stages_map (qp : Qp K) (a : G K) (n : Nat) :
    ((List.range n).foldl (fun a k => addStage (qp.st k) k a) a).off = a.off + cum (fun k => (stageRows (qp.st k) k).length) n ∧
    ∀ key k', ((List.range n).foldl (fun a k => addStage (qp.st k) k a) a).map key k'
      = if k' < n then a.map key k' ++ emap (qp.st k') (a.off + cum (fun k => (stageRows (qp.st k) k).length) k') key else a.map key k' := by
  induction n with
  | zero => exact ⟨rfl, fun key k' => by simp⟩
  | succ n ih =>
    obtain ⟨h1, h2⟩ := ih
    rw [List.range_succ, List.foldl_append, List.foldl_cons, List.foldl_nil]
    generalize (List.range n).foldl (fun a k => addStage (qp.st k) k a) a = b at h1 h2
    obtain ⟨h3, h4⟩ := addStage_map (qp.st n) n b
    refine ⟨by rw [h3, h1, cum_succ]; omega, fun key k' => ?_⟩
    rw [h4]
    by_cases c : k' = n
    · subst c
      rw [if_pos rfl, if_pos (by omega), h2, if_neg (by omega), h1]
    · rw [if_neg c, h2]
      by_cases c2 : k' < n
      · rw [if_pos c2, if_pos (by omega)]
      · rw [if_neg c2, if_neg (by omega)]

omit [LinearOrder K] in
theorem G_pi (qp : Qp K) (k : Nat) (hk : k < qp.N) :
    (buildG qp).map .pi k = List.range' (cum (fun k => (qp.st (k + 1)).nx) k) (qp.st (k + 1)).nx := by
  obtain ⟨h1, h2⟩ := dyn_map qp qp.N
  unfold buildG
  dsimp only
  rw [(stages_map qp _ _).2, if_pos (by omega), h2, if_pos ⟨rfl, hk⟩, emap, List.append_nil]

omit [LinearOrder K] in
theorem G_map (qp : Qp K) (key : Key) (hkey : key ≠ .pi) (k : Nat) (hk : k ≤ qp.N) : (buildG qp).map key k = emap (qp.st k) (sbase qp k) key := by
  obtain ⟨h1, h2⟩ := dyn_map qp qp.N
  unfold buildG
  dsimp only
  rw [(stages_map qp _ _).2, if_pos (by omega), h2, if_neg (by tauto), List.nil_append, h1]
  rfl

omit [LinearOrder K] in
theorem G_dyn_row (qp : Qp K) (k j : Nat) (hk : k < qp.N) (hj : j < (qp.st (k + 1)).nx) :
    (buildG qp).rows[cum (fun k => (qp.st (k + 1)).nx) k + j]? = (dynRows (qp.st k) (qp.st (k + 1)).nx k)[j]? := by
  have e : ∀ k, (dynRows (qp.st k) (qp.st (k + 1)).nx k).length = (qp.st (k + 1)).nx := fun k => by simp [dynRows]
  have h := flat_get (fun k => dynRows (qp.st k) (qp.st (k + 1)).nx k) qp.N k j hk (by rw [e]; exact hj)
  simp only [e] at h
  rw [build_rows, List.getElem?_append_left]
  · exact h
  · by_contra hc
    rw [List.getElem?_eq_none (by omega), List.getElem?_eq_getElem (by rw [e]; exact hj)] at h
    cases h

omit [LinearOrder K] in
theorem G_row (qp : Qp K) (k i : Nat) (hk : k ≤ qp.N) (hi : i < (stageRows (qp.st k) k).length) :
    (buildG qp).rows[sbase qp k + i]? = (stageRows (qp.st k) k)[i]? := by
  have e : ∀ k, (dynRows (qp.st k) (qp.st (k + 1)).nx k).length = (qp.st (k + 1)).nx := fun k => by simp [dynRows]
  have l : ((List.range qp.N).flatMap fun k => dynRows (qp.st k) (qp.st (k + 1)).nx k).length = cum (fun k => (qp.st (k + 1)).nx) qp.N := by
    rw [flat_length]; simp only [e]
  rw [build_rows]
  unfold sbase
  rw [Nat.add_assoc, List.getElem?_append_right (by rw [l]; omega), l, Nat.add_sub_cancel_left]
  exact flat_get (fun k => stageRows (qp.st k) k) (qp.N + 1) k i (by omega) hi

end Acados.CasadiQp
