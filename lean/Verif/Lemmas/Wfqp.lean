import Verif.Spec.Wfqp
import Verif.Lemmas.QpScaling
import Mathlib.Data.Finset.Card
/-!
# Auxiliary facts for the relaxed QP
-/
namespace Acados.Wfqp
open Finset
open Acados.QpScal

theorem setRev_miss (n : Nat) (idx : Nat → Nat) (off : Nat) (rev : Nat → Int) (r : Nat)
    (h : ∀ i < n, idx i ≠ r) : setRev n idx off rev r = rev r := by
  unfold setRev
  induction n with
  | zero => rfl
  | succ n ih =>
    rw [List.range_succ, List.foldl_append, List.foldl_cons, List.foldl_nil,
      Function.update_of_ne (fun e => h n (by omega) e.symm)]
    exact ih fun i hi => h i (by omega)

theorem setRev_hit (n : Nat) (idx : Nat → Nat) (off : Nat) (rev : Nat → Int)
    (hinj : ∀ i < n, ∀ j < n, idx i = idx j → i = j) (i : Nat) (hi : i < n) :
    setRev n idx off rev (idx i) = ((i + off : Nat) : Int) := by
  unfold setRev
  induction n with
  | zero => omega
  | succ n ih =>
    rw [List.range_succ, List.foldl_append, List.foldl_cons, List.foldl_nil]
    by_cases h : i = n
    · subst h; rw [Function.update_self]
    · have hne : idx i ≠ idx n := fun e => h (hinj i hi n (by omega) e)
      rw [Function.update_of_ne hne]
      exact ih (fun a ha b hb => hinj a (by omega) b (by omega)) (by omega)

section idx
variable {d : CDims} {sbu sbx sg sh : Nat → Nat}

theorem build_cases (V : ValidSoft d sbu sbx sg sh) (j : Nat) (hj : j < d.ns) :
    (j < d.nsbu ∧ buildIdxs d sbu sbx sg sh j = sbu j ∧ sbu j < d.nbu) ∨
    (d.nsbu ≤ j ∧ j < d.nsbu + d.nsbx ∧ buildIdxs d sbu sbx sg sh j = d.nbu + sbx (j - d.nsbu) ∧
      sbx (j - d.nsbu) < d.nbx) ∨
    (d.nsbu + d.nsbx ≤ j ∧ j < d.nsbu + d.nsbx + d.nsg ∧
      buildIdxs d sbu sbx sg sh j = d.nbu + d.nbx + sg (j - d.nsbu - d.nsbx) ∧
      sg (j - d.nsbu - d.nsbx) < d.ng) ∨
    (d.nsbu + d.nsbx + d.nsg ≤ j ∧
      buildIdxs d sbu sbx sg sh j = d.nbu + d.nbx + d.ng + sh (j - d.nsbu - d.nsbx - d.nsg) ∧
      sh (j - d.nsbu - d.nsbx - d.nsg) < d.nh) := by
  have hs := V.sum
  unfold buildIdxs
  by_cases h1 : j < d.nsbu
  · exact Or.inl ⟨h1, by rw [if_pos h1], V.bu j h1⟩
  by_cases h2 : j < d.nsbu + d.nsbx
  · exact Or.inr (Or.inl ⟨by omega, h2, by rw [if_neg h1, if_pos h2], V.bx _ (by omega)⟩)
  by_cases h3 : j < d.nsbu + d.nsbx + d.nsg
  · exact Or.inr (Or.inr (Or.inl ⟨by omega, h3, by rw [if_neg h1, if_neg h2, if_pos h3],
      V.g _ (by omega)⟩))
  · exact Or.inr (Or.inr (Or.inr ⟨by omega, by rw [if_neg h1, if_neg h2, if_neg h3],
      V.h _ (by omega)⟩))

theorem build_lt (V : ValidSoft d sbu sbx sg sh) (j : Nat) (hj : j < d.ns) :
    buildIdxs d sbu sbx sg sh j < d.n := by
  unfold CDims.n
  rcases build_cases V j hj with ⟨h, e, b⟩ | ⟨h, h', e, b⟩ | ⟨h, h', e, b⟩ | ⟨h, e, b⟩ <;> omega

theorem build_inj (V : ValidSoft d sbu sbx sg sh) (j : Nat) (hj : j < d.ns) (k : Nat) (hk : k < d.ns)
    (e : buildIdxs d sbu sbx sg sh j = buildIdxs d sbu sbx sg sh k) : j = k := by
  have hs := V.sum
  rcases build_cases V j hj with ⟨h, ej, b⟩ | ⟨h, h', ej, b⟩ | ⟨h, h', ej, b⟩ | ⟨h, ej, b⟩ <;>
  rcases build_cases V k hk with ⟨h2, ek, b2⟩ | ⟨h2, h2', ek, b2⟩ | ⟨h2, h2', ek, b2⟩ | ⟨h2, ek, b2⟩ <;>
  first
  | exact V.ibu j h k h2 (by omega)
  | (have := V.ibx (j - d.nsbu) (by omega) (k - d.nsbu) (by omega) (by omega); omega)
  | (have := V.ig (j - d.nsbu - d.nsbx) (by omega) (k - d.nsbu - d.nsbx) (by omega) (by omega); omega)
  | (have := V.ih (j - d.nsbu - d.nsbx - d.nsg) (by omega) (k - d.nsbu - d.nsbx - d.nsg) (by omega)
      (by omega); omega)
  | omega

theorem build_ge_nbu (V : ValidSoft d sbu sbx sg sh) (j : Nat) (hj : j < d.ns) :
    d.nbu ≤ buildIdxs d sbu sbx sg sh j ↔ d.nsbu ≤ j := by
  rcases build_cases V j hj with ⟨h, e, b⟩ | ⟨h, h', e, b⟩ | ⟨h, h', e, b⟩ | ⟨h, e, b⟩ <;>
    constructor <;> intro _ <;> omega

theorem build_ge_nb (V : ValidSoft d sbu sbx sg sh) (j : Nat) (hj : j < d.ns) :
    d.nbu + d.nbx ≤ buildIdxs d sbu sbx sg sh j ↔ d.nsbu + d.nsbx ≤ j := by
  rcases build_cases V j hj with ⟨h, e, b⟩ | ⟨h, h', e, b⟩ | ⟨h, h', e, b⟩ | ⟨h, e, b⟩ <;>
    constructor <;> intro _ <;> omega

theorem userSoft_iff (V : ValidSoft d sbu sbx sg sh) (i : Nat) :
    UserSoft d sbu sbx sg sh i ↔ ∃ j < d.ns, buildIdxs d sbu sbx sg sh j = i := by
  have hs := V.sum
  constructor
  · rintro (⟨j, hj, e⟩ | ⟨j, hj, e⟩ | ⟨j, hj, e⟩ | ⟨j, hj, e⟩)
    · exact ⟨j, by omega, by unfold buildIdxs; rw [if_pos hj, e]⟩
    · refine ⟨d.nsbu + j, by omega, ?_⟩
      unfold buildIdxs
      rw [if_neg (by omega), if_pos (by omega), Nat.add_sub_cancel_left, e]
    · refine ⟨d.nsbu + d.nsbx + j, by omega, ?_⟩
      unfold buildIdxs
      rw [if_neg (by omega), if_neg (by omega), if_pos (by omega),
        show d.nsbu + d.nsbx + j - d.nsbu - d.nsbx = j by omega, e]
    · refine ⟨d.nsbu + d.nsbx + d.nsg + j, by omega, ?_⟩
      unfold buildIdxs
      rw [if_neg (by omega), if_neg (by omega), if_neg (by omega),
        show d.nsbu + d.nsbx + d.nsg + j - d.nsbu - d.nsbx - d.nsg = j by omega, e]
  · rintro ⟨j, hj, e⟩
    rcases build_cases V j hj with ⟨h, e', b⟩ | ⟨h, h', e', b⟩ | ⟨h, h', e', b⟩ | ⟨h, e', b⟩
    · exact Or.inl ⟨j, h, by rw [← e, e']⟩
    · exact Or.inr (Or.inl ⟨j - d.nsbu, by omega, by rw [← e, e']⟩)
    · exact Or.inr (Or.inr (Or.inl ⟨j - d.nsbu - d.nsbx, by omega, by rw [← e, e']⟩))
    · exact Or.inr (Or.inr (Or.inr ⟨j - d.nsbu - d.nsbx - d.nsg, by omega, by rw [← e, e']⟩))

end idx

theorem slacked_iff (d : CDims) (idxs : Nat → Nat) (i : Nat) :
    slacked d idxs i = true ↔ ∃ j < d.ns, idxs j = i := by
  simp [slacked]

theorem relaxable_iff (first : Bool) (d : CDims) (i : Nat) :
    relaxable first d i = true ↔ ¬ NeverRelaxed first d i := by
  unfold relaxable NeverRelaxed
  cases first <;> simp; omega

theorem mem_idxns (first : Bool) (d : CDims) (idxs : Nat → Nat) (i : Nat) :
    i ∈ idxnsOf first d idxs ↔ i < d.n ∧ (¬ ∃ j < d.ns, idxs j = i) ∧ ¬ NeverRelaxed first d i := by
  simp only [idxnsOf, List.mem_filter, List.mem_range, Bool.and_eq_true, Bool.not_eq_true',
    relaxable_iff, ← slacked_iff, Bool.not_eq_true]

theorem idxns_nodup (first : Bool) (d : CDims) (idxs : Nat → Nat) : (idxnsOf first d idxs).Nodup :=
  List.nodup_range.filter _

/-- the number of values written to `idxns`, for any index array: counted against the rows that are
slacked and relaxable -/
theorem idxns_length (first : Bool) (d : CDims) (idxs : Nat → Nat) :
    (idxnsOf first d idxs).length +
      (((range d.ns).image idxs).filter fun i => i < d.n ∧ ¬ NeverRelaxed first d i).card
      = if first then d.ng + d.nh else d.nbx + d.ng + d.nh := by
  classical
  have h1 : (idxnsOf first d idxs).length = (idxnsOf first d idxs).toFinset.card :=
    (List.toFinset_card_of_nodup (idxns_nodup ..)).symm
  rw [h1, ← card_union_of_disjoint]
  · have : (idxnsOf first d idxs).toFinset ∪
        (((range d.ns).image idxs).filter fun i => i < d.n ∧ ¬ NeverRelaxed first d i)
        = Ico (if first then d.nbu + d.nbx else d.nbu) d.n := by
      ext i
      simp only [mem_union, List.mem_toFinset, mem_idxns, mem_filter, mem_image, mem_range, mem_Ico]
      have hN : ¬ NeverRelaxed first d i ↔ (if first then d.nbu + d.nbx else d.nbu) ≤ i := by
        unfold NeverRelaxed; cases first <;> simp; omega
      rw [hN]
      constructor
      · rintro (⟨a, _, b⟩ | ⟨_, a, b⟩) <;> exact ⟨b, a⟩
      · rintro ⟨b, a⟩
        by_cases h : ∃ j < d.ns, idxs j = i
        · exact Or.inr ⟨h, a, b⟩
        · exact Or.inl ⟨a, h, b⟩
    rw [this, Nat.card_Ico]
    unfold CDims.n
    cases first <;> simp <;> omega
  · rw [disjoint_left]
    intro i hi hj
    simp only [List.mem_toFinset, mem_idxns] at hi
    simp only [mem_filter, mem_image, mem_range] at hj
    exact hi.2.1 hj.1

section idx2
variable {d : CDims} {sbu sbx sg sh : Nat → Nat}

theorem idxns_length_valid (V : ValidSoft d sbu sbx sg sh) (first : Bool) :
    ((idxnsOf first d (buildIdxs d sbu sbx sg sh)).length : Int) = nns first d ∧
    d.ns + (idxnsOf first d (buildIdxs d sbu sbx sg sh)).length = relaxedNs first d := by
  classical
  have hs := V.sum
  have h := idxns_length first d (buildIdxs d sbu sbx sg sh)
  have hc : (((range d.ns).image (buildIdxs d sbu sbx sg sh)).filter
      fun i => i < d.n ∧ ¬ NeverRelaxed first d i).card
      = d.ns - (if first then d.nsbu + d.nsbx else d.nsbu) := by
    have : (((range d.ns).image (buildIdxs d sbu sbx sg sh)).filter
        fun i => i < d.n ∧ ¬ NeverRelaxed first d i)
        = (Ico (if first then d.nsbu + d.nsbx else d.nsbu) d.ns).image (buildIdxs d sbu sbx sg sh) := by
      ext i
      simp only [mem_filter, mem_image, mem_range, mem_Ico]
      have hN : ∀ i, ¬ NeverRelaxed first d i ↔ (if first then d.nbu + d.nbx else d.nbu) ≤ i := by
        intro i; unfold NeverRelaxed; cases first <;> simp; omega
      constructor
      · rintro ⟨⟨j, hj, e⟩, _, hn⟩
        refine ⟨j, ⟨?_, hj⟩, e⟩
        rw [hN, ← e] at hn
        cases first
        · simpa using (build_ge_nbu V j hj).1 (by simpa using hn)
        · simpa using (build_ge_nb V j hj).1 (by simpa using hn)
      · rintro ⟨j, ⟨hl, hj⟩, e⟩
        refine ⟨⟨j, hj, e⟩, by rw [← e]; exact build_lt V j hj, ?_⟩
        rw [hN, ← e]
        cases first
        · simpa using (build_ge_nbu V j hj).2 (by simpa using hl)
        · simpa using (build_ge_nb V j hj).2 (by simpa using hl)
    rw [this, card_image_of_injOn, Nat.card_Ico]
    intro a ha b hb e
    simp only [coe_Ico, Set.mem_Ico] at ha hb
    exact build_inj V a ha.2 b hb.2 e
  rw [hc] at h
  unfold nns relaxedNs CDims.n
  cases first <;> simp only [if_true, Bool.false_eq_true, if_false] at h ⊢ <;> constructor <;> omega

theorem nomRev_char (V : ValidSoft d sbu sbx sg sh) :
    (∀ j < d.ns, nomRev d (buildIdxs d sbu sbx sg sh) (buildIdxs d sbu sbx sg sh j) = j) ∧
    (∀ i, (¬ ∃ j < d.ns, buildIdxs d sbu sbx sg sh j = i) →
      nomRev d (buildIdxs d sbu sbx sg sh) i = -1) := by
  constructor
  · intro j hj
    have := setRev_hit d.ns (buildIdxs d sbu sbx sg sh) 0 (fun _ => -1)
      (fun a ha b hb => build_inj V a ha b hb) j hj
    simpa [nomRev] using this
  · intro i hi
    exact setRev_miss _ _ _ _ _ fun j hj e => hi ⟨j, hj, e⟩

theorem relRev_char (V : ValidSoft d sbu sbx sg sh) (first : Bool) :
    (∀ j < d.ns, relRev first d (buildIdxs d sbu sbx sg sh) (buildIdxs d sbu sbx sg sh j) = j) ∧
    (∀ p (hp : p < (idxnsOf first d (buildIdxs d sbu sbx sg sh)).length),
      relRev first d (buildIdxs d sbu sbx sg sh) (idxnsOf first d (buildIdxs d sbu sbx sg sh))[p]
        = ((p + d.ns : Nat) : Int)) ∧
    (∀ i, i ∉ idxnsOf first d (buildIdxs d sbu sbx sg sh) →
      relRev first d (buildIdxs d sbu sbx sg sh) i = nomRev d (buildIdxs d sbu sbx sg sh) i) := by
  have hl := (idxns_length_valid V first).1
  have hn : (nns first d).toNat = (idxnsOf first d (buildIdxs d sbu sbx sg sh)).length := by omega
  have hget : ∀ p (hp : p < (idxnsOf first d (buildIdxs d sbu sbx sg sh)).length),
      (idxnsOf first d (buildIdxs d sbu sbx sg sh)).getD p 0
        = (idxnsOf first d (buildIdxs d sbu sbx sg sh))[p] := by
    intro p hp; simp [List.getD_eq_getElem?_getD, hp]
  have hmiss : ∀ i, i ∉ idxnsOf first d (buildIdxs d sbu sbx sg sh) →
      relRev first d (buildIdxs d sbu sbx sg sh) i = nomRev d (buildIdxs d sbu sbx sg sh) i := by
    intro i hi
    unfold relRev
    refine setRev_miss _ _ _ _ _ fun p hp e => hi ?_
    rw [hn] at hp
    rw [hget p hp] at e
    rw [← e]; exact List.getElem_mem _
  refine ⟨fun j hj => ?_, fun p hp => ?_, hmiss⟩
  · rw [hmiss _ fun h => ((mem_idxns ..).1 h).2.1 ⟨j, hj, rfl⟩]
    exact (nomRev_char V).1 j hj
  · have := setRev_hit (nns first d).toNat
      (fun i => (idxnsOf first d (buildIdxs d sbu sbx sg sh)).getD i 0) d.ns
      (nomRev d (buildIdxs d sbu sbx sg sh)) (by
        intro a ha b hb e
        rw [hn] at ha hb
        simp only [hget a ha, hget b hb] at e
        exact (idxns_nodup ..).getElem_inj_iff.1 e) p (by rw [hn]; exact hp)
    rw [hget p hp] at this
    exact this

end idx2

/-! ## QP data -/
section qp
set_option linter.unusedSectionVars false
variable {K : Type*} [Field K] [LinearOrder K] [IsStrictOrderedRing K]

/-- a QP whose hard rows are control bounds and initial state bounds with a common point is feasible -/
theorem soft_feasible (q : Qp K) (hnux : ∀ i, (q.st i).nux = q.nu i + q.nx i) (u : Nat → Nat → K)
    (x0 : Nat → K)
    (hidxb : ∀ i, ∀ j < (q.st i).nb, (q.st i).idxb j < (q.st i).nux)
    (hidx : ∀ i, ∀ r < (q.st i).m, (q.st i).idxs r = -1 ∨ ∃ k < (q.st i).ns, (q.st i).idxs r = (k : Int))
    (hard : ∀ i ≤ q.N, ∀ r < (q.st i).m, (q.st i).idxs r = -1 → r < (q.st i).nb ∧
      (((q.st i).idxb r < q.nu i ∧ BoundOk (q.st i) r (u i ((q.st i).idxb r))) ∨
       (i = 0 ∧ q.nu 0 ≤ (q.st 0).idxb r ∧ BoundOk (q.st 0) r (x0 ((q.st 0).idxb r - q.nu 0))))) :
    ∃ ux, Feasible q ux := by
  -- states from the dynamics
  let x : Nat → Nat → K := fun i => Nat.rec x0 (fun i xi c =>
    (∑ r ∈ range (q.st i).nux, (q.st i).BAbt r c * (if r < q.nu i then u i r else xi (r - q.nu i)))
      + (q.st i).b c) i
  let z : Nat → Nat → K := fun i r => if r < q.nu i then u i r else x i (r - q.nu i)
  -- one large value for all slacks of a stage
  let S : Nat → K := fun i =>
    (∑ r ∈ range (q.st i).m, (|(q.st i).lhs (z i) r| + |(q.st i).d r| + |(q.st i).d ((q.st i).m + r)|)) +
    ∑ k ∈ range (2 * (q.st i).ns), |(q.st i).d (2 * (q.st i).m + k)|
  have hS1 : ∀ i, ∀ r < (q.st i).m,
      |(q.st i).lhs (z i) r| + |(q.st i).d r| + |(q.st i).d ((q.st i).m + r)| ≤ S i := by
    intro i r hr
    have h1 := single_le_sum (f := fun r => |(q.st i).lhs (z i) r| + |(q.st i).d r| +
      |(q.st i).d ((q.st i).m + r)|) (s := range (q.st i).m) (fun r _ => by positivity) (mem_range.2 hr)
    have h2 : 0 ≤ ∑ k ∈ range (2 * (q.st i).ns), |(q.st i).d (2 * (q.st i).m + k)| :=
      sum_nonneg fun k _ => abs_nonneg _
    show _ ≤ _ + _
    linarith
  have hS2 : ∀ i, ∀ k < 2 * (q.st i).ns, |(q.st i).d (2 * (q.st i).m + k)| ≤ S i := by
    intro i k hk
    have h1 := single_le_sum (f := fun k => |(q.st i).d (2 * (q.st i).m + k)|)
      (s := range (2 * (q.st i).ns)) (fun k _ => abs_nonneg _) (mem_range.2 hk)
    have h2 : 0 ≤ ∑ r ∈ range (q.st i).m, (|(q.st i).lhs (z i) r| + |(q.st i).d r| +
      |(q.st i).d ((q.st i).m + r)|) := sum_nonneg fun k _ => by positivity
    show _ ≤ _ + _
    linarith
  let w : Nat → Nat → K := fun i j => if j < (q.st i).nux then z i j else S i
  have hwz : ∀ i, ∀ r < (q.st i).nux, w i r = z i r := fun i r hr => if_pos hr
  have hws : ∀ i k, w i ((q.st i).nux + k) = S i := fun i k => if_neg (by omega)
  have hlhs : ∀ i, ∀ r < (q.st i).m, (q.st i).lhs (w i) r = (q.st i).lhs (z i) r := by
    intro i r hr
    unfold Stage.lhs
    split
    · next hb => exact hwz i _ (hidxb i r hb)
    · exact sum_congr rfl fun c hc => by rw [hwz i c (mem_range.1 hc)]
  -- value of a bound row
  have hb0 : ∀ i, ∀ r < (q.st i).nb, (q.st i).lhs (z i) r = z i ((q.st i).idxb r) := by
    intro i r hr; unfold Stage.lhs; rw [if_pos hr]
  have hok : ∀ i ≤ q.N, ∀ r < (q.st i).m, (q.st i).idxs r = -1 →
      BoundOk (q.st i) r ((q.st i).lhs (z i) r) := by
    intro i hi r hr hh
    obtain ⟨hb, h⟩ := hard i hi r hr hh
    rw [hb0 i r hb]
    rcases h with ⟨h1, h2⟩ | ⟨h0, h1, h2⟩
    · have : z i ((q.st i).idxb r) = u i ((q.st i).idxb r) := if_pos h1
      rw [this]; exact h2
    · subst h0
      have : z 0 ((q.st 0).idxb r) = x0 ((q.st 0).idxb r - q.nu 0) := if_neg (by omega)
      rw [this]; exact h2
  have hsl : ∀ i, ∀ r < (q.st i).m, ((q.st i).idxs r = -1 ∧ (q.st i).sl (w i) r = 0 ∧ (q.st i).su (w i) r = 0)
      ∨ ((q.st i).sl (w i) r = S i ∧ (q.st i).su (w i) r = S i) := by
    intro i r hr
    rcases hidx i r hr with h | ⟨k, hk, h⟩
    · left; unfold Stage.sl Stage.su; rw [h]; simp
    · right; unfold Stage.sl Stage.su
      rw [h]
      simp only [Int.natCast_nonneg, if_true, Int.toNat_natCast, add_assoc, hws, and_self]
  refine ⟨w, ?_, ?_, ?_, ?_⟩
  · intro i hi c hc
    have h1 : w (i + 1) (q.nu (i + 1) + c) = x (i + 1) c := by
      rw [hwz _ _ (by rw [hnux]; omega)]
      show (if _ then _ else _) = _
      rw [if_neg (by omega), Nat.add_sub_cancel_left]
    rw [h1]
    show _ = (∑ r ∈ range (q.st i).nux, (q.st i).BAbt r c * (if r < q.nu i then u i r else x i (r - q.nu i)))
      + (q.st i).b c
    congr 1
    exact sum_congr rfl fun r hr => by rw [hwz i r (mem_range.1 hr)]
  · intro i hi r hr hm
    unfold Stage.gapL
    rw [hlhs i r hr]
    have h1 := hS1 i r hr
    rcases hsl i r hr with ⟨hh, e, -⟩ | ⟨e, -⟩ <;> rw [e]
    · have := (hok i hi r hr hh).1 hm; linarith
    · have a := neg_abs_le ((q.st i).lhs (z i) r)
      have b := le_abs_self ((q.st i).d r)
      have c := abs_nonneg ((q.st i).d ((q.st i).m + r))
      linarith
  · intro i hi r hr hm
    unfold Stage.gapU
    rw [hlhs i r hr]
    have h1 := hS1 i r hr
    rcases hsl i r hr with ⟨hh, -, e⟩ | ⟨-, e⟩ <;> rw [e]
    · have := (hok i hi r hr hh).2 hm; linarith
    · have a := le_abs_self ((q.st i).lhs (z i) r)
      have b := abs_nonneg ((q.st i).d r)
      have c := le_abs_self ((q.st i).d ((q.st i).m + r))
      linarith
  · intro i hi k hk hm
    unfold Stage.gapS
    rw [hws]
    have := hS2 i k hk
    have b := le_abs_self ((q.st i).d (2 * (q.st i).m + k))
    linarith

theorem veccpAt_in (n : Nat) (x : Nat → K) (xi : Nat) (y : Nat → K) (yi j : Nat) (hj : j < n) :
    veccpAt n x xi y yi (yi + j) = x (xi + j) := by
  unfold veccpAt; rw [if_pos (by omega), Nat.add_sub_cancel_left]

theorem veccpAt_out (n : Nat) (x : Nat → K) (xi : Nat) (y : Nat → K) (yi j : Nat)
    (hj : j < yi ∨ yi + n ≤ j) : veccpAt n x xi y yi j = y j := by
  unfold veccpAt; rw [if_neg (by omega)]

variable {p : Soft} {q : Qp K} {old : Nat → Stage K} {useCon : Bool} {conH : Nat → Nat → Nat → K} {hs : K}

/-- bounds of the relaxed stage -/
theorem relax_d (k : Nat) (rev : Nat → Int) (cH : Nat → Nat → K) (s o : Stage K) :
    (∀ r < 2 * s.m, (relaxStage useCon cH hs k rev s o).d r = s.d r) ∧
    (∀ j < s.ns, (relaxStage useCon cH hs k rev s o).d (2 * s.m + j) = s.d (2 * s.m + j)) ∧
    (∀ j < s.ns, (relaxStage useCon cH hs k rev s o).d (2 * s.m + (s.ns + k + j))
      = s.d (2 * s.m + (s.ns + j))) ∧
    (∀ j < k, (relaxStage useCon cH hs k rev s o).d (2 * s.m + (s.ns + j))
      = o.d (2 * s.m + (s.ns + j))) ∧
    (∀ j < k, (relaxStage useCon cH hs k rev s o).d (2 * s.m + (2 * s.ns + k + j))
      = o.d (2 * s.m + (2 * s.ns + k + j))) := by
  simp only [relaxStage, Stage.m]
  refine ⟨fun r hr => ?_, fun j hj => ?_, fun j hj => ?_, fun j hj => ?_, fun j hj => ?_⟩
  · rw [veccpAt_out _ _ _ _ _ _ (by omega)]
    have := veccpAt_in (2 * (s.nb + s.ng) + s.ns) s.d 0 o.d 0 r (by omega)
    simpa using this
  · rw [veccpAt_out _ _ _ _ _ _ (by omega)]
    have := veccpAt_in (2 * (s.nb + s.ng) + s.ns) s.d 0 o.d 0 (2 * (s.nb + s.ng) + j) (by omega)
    simpa using this
  · rw [show 2 * (s.nb + s.ng) + (s.ns + k + j) = (2 * (s.nb + s.ng) + s.ns + k) + j by omega,
      veccpAt_in _ _ _ _ _ _ hj, add_assoc]
  · rw [veccpAt_out _ _ _ _ _ _ (by omega), veccpAt_out _ _ _ _ _ _ (by omega)]
  · rw [veccpAt_out _ _ _ _ _ _ (by omega), veccpAt_out _ _ _ _ _ _ (by omega)]

theorem relax_mask (k : Nat) (rev : Nat → Int) (cH : Nat → Nat → K) (s o : Stage K) :
    (∀ r < 2 * s.m, (relaxStage useCon cH hs k rev s o).mask r = s.mask r) ∧
    (∀ j < 2 * (s.ns + k), (relaxStage useCon cH hs k rev s o).mask (2 * s.m + j) = 1) ∧
    (∀ j, 2 * (s.m + (s.ns + k)) ≤ j → (relaxStage useCon cH hs k rev s o).mask j = o.mask j) := by
  simp only [relaxStage, Stage.m, vecse]
  refine ⟨fun r hr => ?_, fun j hj => ?_, fun j hj => ?_⟩
  · rw [if_neg (by omega)]
    have := veccpAt_in (2 * (s.nb + s.ng)) s.mask 0 o.mask 0 r (by omega)
    simpa using this
  · rw [if_pos (by omega)]
  · rw [if_neg (by omega), veccpAt_out _ _ _ _ _ _ (by omega)]

theorem Soft.nns_eq (hd : Describes p q) (i : Nat) : p.nns i = (p.idxns i).length := by
  have := (idxns_length_valid (hd.valid i) (i == 0)).1
  unfold Soft.nns Soft.idxns Soft.idxs
  omega

theorem Describes.m (hd : Describes p q) (i : Nat) : (q.st i).m = (p.cd i).n := by
  unfold Stage.m CDims.n; rw [hd.nb, hd.ng]; omega

/-- every row: either it keeps its slack, or it is one of the added ones -/
theorem rows (hd : Describes p q) (i : Nat) (r : Nat) (hr : r < (q.st i).m) :
    (r ∈ p.idxns i ∧ (q.st i).idxs r = -1 ∧
      ∃ c < p.nns i, relRev (i == 0) (p.cd i) (p.idxs i) r = (((q.st i).ns + c : Nat) : Int)) ∨
    (r ∉ p.idxns i ∧ relRev (i == 0) (p.cd i) (p.idxs i) r = (q.st i).idxs r ∧
      ((q.st i).idxs r = -1 ∨ ∃ k < (q.st i).ns, (q.st i).idxs r = (k : Int))) := by
  have hV := hd.valid i
  obtain ⟨h1, h2, h3⟩ := relRev_char hV (i == 0)
  obtain ⟨n1, n2⟩ := nomRev_char hV
  rw [hd.idxs, hd.ns]
  by_cases hm : r ∈ p.idxns i
  · left
    have hm' := (mem_idxns _ _ _ _).1 hm
    refine ⟨hm, n2 r hm'.2.1, ?_⟩
    obtain ⟨c, hc, e⟩ := List.getElem_of_mem hm
    refine ⟨c, by rw [Soft.nns_eq hd]; exact hc, ?_⟩
    have := h2 c hc
    have e' : (idxnsOf (i == 0) (p.cd i)
      (buildIdxs (p.cd i) (p.sbu i) (p.sbx i) (p.sg i) (p.sh i)))[c]'hc = r := e
    rw [e', Nat.add_comm] at this
    exact this
  · right
    refine ⟨hm, h3 r hm, ?_⟩
    by_cases hs : ∃ j < (p.cd i).ns, buildIdxs (p.cd i) (p.sbu i) (p.sbx i) (p.sg i) (p.sh i) j = r
    · obtain ⟨j, hj, e⟩ := hs
      right
      exact ⟨j, hj, by rw [← e]; exact n1 j hj⟩
    · left; exact n2 r hs

theorem relax_idx (hd : Describes p q) (i : Nat) (r : Nat) (hr : r < (q.st i).m) :
    relRev (i == 0) (p.cd i) (p.idxs i) r = -1 ∨
      ∃ k < (q.st i).ns + p.nns i, relRev (i == 0) (p.cd i) (p.idxs i) r = (k : Int) := by
  rcases rows hd i r hr with ⟨-, -, c, hc, e⟩ | ⟨-, e, h⟩
  · exact Or.inr ⟨_, by omega, e⟩
  · rw [e]
    rcases h with h | ⟨k, hk, h⟩
    · exact Or.inl h
    · exact Or.inr ⟨k, by omega, h⟩

theorem relax_wf (hd : Describes p q) (hq : WF q) (ho : ∀ i r, (old i).mask r = 0 ∨ (old i).mask r = 1) :
    WF (relaxQp useCon conH hs p q old) where
  nux := hq.nux
  idxb := hq.idxb
  idxs := fun i r hr => relax_idx hd i r hr
  mask := by
    intro i r
    obtain ⟨h1, h2, h3⟩ := relax_mask (useCon := useCon) (hs := hs) (p.nns i)
      (relRev (i == 0) (p.cd i) (p.idxs i)) (conH i) (q.st i) (old i)
    have e : ((relaxQp useCon conH hs p q old).st i).mask r = (relaxStage useCon (conH i) hs (p.nns i)
      (relRev (i == 0) (p.cd i) (p.idxs i)) (q.st i) (old i)).mask r := rfl
    rw [e]
    by_cases ha : r < 2 * (q.st i).m
    · rw [h1 r ha]; exact hq.mask i r
    · by_cases hb : r < 2 * (q.st i).m + 2 * ((q.st i).ns + p.nns i)
      · have := h2 (r - 2 * (q.st i).m) (by omega)
        rw [show 2 * (q.st i).m + (r - 2 * (q.st i).m) = r by omega] at this
        exact Or.inr this
      · rw [h3 r (by omega)]; exact ho i r

theorem relRev_inj (hd : Describes p q) (i r r' : Nat) (hr : r < (q.st i).m) (hr' : r' < (q.st i).m)
    (h0 : 0 ≤ relRev (i == 0) (p.cd i) (p.idxs i) r)
    (he : relRev (i == 0) (p.cd i) (p.idxs i) r = relRev (i == 0) (p.cd i) (p.idxs i) r') : r = r' := by
  have hV := hd.valid i
  obtain ⟨h1, h2, h3⟩ := relRev_char hV (i == 0)
  obtain ⟨n1, n2⟩ := nomRev_char hV
  -- preimage of each value
  have key : ∀ r < (q.st i).m, 0 ≤ relRev (i == 0) (p.cd i) (p.idxs i) r →
      (∃ j < (p.cd i).ns, p.idxs i j = r ∧ relRev (i == 0) (p.cd i) (p.idxs i) r = j) ∨
      (∃ c, ∃ h : c < (p.idxns i).length, (p.idxns i)[c] = r ∧
        relRev (i == 0) (p.cd i) (p.idxs i) r = ((c + (p.cd i).ns : Nat) : Int)) := by
    intro r hr h0
    by_cases hm : r ∈ p.idxns i
    · right
      obtain ⟨c, hc, e⟩ := List.getElem_of_mem hm
      refine ⟨c, hc, e, ?_⟩
      have := h2 c hc
      have e' : (idxnsOf (i == 0) (p.cd i)
        (buildIdxs (p.cd i) (p.sbu i) (p.sbx i) (p.sg i) (p.sh i)))[c]'hc = r := e
      rw [e'] at this
      exact this
    · left
      by_cases hs : ∃ j < (p.cd i).ns, buildIdxs (p.cd i) (p.sbu i) (p.sbx i) (p.sg i) (p.sh i) j = r
      · obtain ⟨j, hj, e⟩ := hs
        exact ⟨j, hj, e, by rw [← e]; exact h1 j hj⟩
      · have := h3 r hm
        rw [n2 r hs] at this
        exact absurd h0 (by unfold Soft.idxs; rw [this]; decide)
  rcases key r hr h0 with ⟨j, hj, e, v⟩ | ⟨c, hc, e, v⟩ <;>
  rcases key r' hr' (he ▸ h0) with ⟨j', hj', e', v'⟩ | ⟨c', hc', e', v'⟩
  · have : j = j' := by rw [v, v'] at he; omega
    rw [← e, ← e', this]
  · rw [v, v'] at he; omega
  · rw [v, v'] at he; omega
  · have : c = c' := by rw [v, v'] at he; omega
    subst this
    rw [← e, ← e']

theorem relax_unshared (hd : Describes p q) : SlacksUnshared (relaxQp useCon conH hs p q old) :=
  fun i r hr r' hr' h0 he => relRev_inj hd i r r' hr hr' h0 he

theorem nom_unshared (hd : Describes p q) : SlacksUnshared q := by
  intro i r hr r' hr' h0 he
  have e1 : relRev (i == 0) (p.cd i) (p.idxs i) r = (q.st i).idxs r := by
    rcases rows hd i r hr with ⟨-, h, -⟩ | ⟨-, h, -⟩
    · rw [h] at h0; exact absurd h0 (by decide)
    · exact h
  have e2 : relRev (i == 0) (p.cd i) (p.idxs i) r' = (q.st i).idxs r' := by
    rcases rows hd i r' hr' with ⟨-, h, -⟩ | ⟨-, h, -⟩
    · rw [he, h] at h0; exact absurd h0 (by decide)
    · exact h
  exact relRev_inj hd i r r' hr hr' (by rw [e1]; exact h0) (by rw [e1, e2, he])

/-- result of the bound update -/
theorem bo_fold (F : K) (s rel : Stage K) (ux : Nat → K) (l : List Nat) (hn : l.Nodup)
    (hl : ∀ c ∈ l, c < s.m) (d : Nat → K) :
    (∀ c < s.m, l.foldl (boStep F s rel ux) d c =
      if c ∈ l then d c - F * ux (s.nux + (rel.idxs c).toNat) else d c) ∧
    (∀ c < s.m, l.foldl (boStep F s rel ux) d (s.m + c) =
      if c ∈ l then d (s.m + c) - F * ux (s.nux + rel.ns + (rel.idxs c).toNat) else d (s.m + c)) ∧
    (∀ j, 2 * s.m ≤ j → l.foldl (boStep F s rel ux) d j = d j) := by
  induction l generalizing d with
  | nil => simp
  | cons a l ih =>
    have hna : a ∉ l := (List.nodup_cons.1 hn).1
    have ha : a < s.m := hl a (by simp)
    obtain ⟨i1, i2, i3⟩ := ih (List.nodup_cons.1 hn).2 (fun c hc => hl c (by simp [hc]))
      (boStep F s rel ux d a)
    have hb1 : ∀ c < s.m, boStep F s rel ux d a c =
        if c = a then d c - F * ux (s.nux + (rel.idxs c).toNat) else d c := by
      intro c hc
      unfold Stage.m at hc ha
      simp only [boStep]
      rw [Function.update_of_ne (by omega)]
      split
      · next h => subst h; rw [Function.update_self]
      · next h => rw [Function.update_of_ne h]
    have hb2 : ∀ c < s.m, boStep F s rel ux d a (s.m + c) =
        if c = a then d (s.m + c) - F * ux (s.nux + rel.ns + (rel.idxs c).toNat) else d (s.m + c) := by
      intro c hc
      unfold Stage.m at hc ha ⊢
      simp only [boStep]
      split
      · next h => subst h; rw [Function.update_self, Function.update_of_ne (by omega)]
      · next h => rw [Function.update_of_ne (by omega), Function.update_of_ne (by omega)]
    have hb3 : ∀ j, 2 * s.m ≤ j → boStep F s rel ux d a j = d j := by
      intro j hj
      unfold Stage.m at hj ha
      simp only [boStep]
      rw [Function.update_of_ne (by omega), Function.update_of_ne (by omega)]
    refine ⟨fun c hc => ?_, fun c hc => ?_, fun j hj => ?_⟩
    · rw [List.foldl_cons, i1 c hc, hb1 c hc]
      by_cases h1 : c = a
      · subst h1; simp [hna]
      · simp [h1]
    · rw [List.foldl_cons, i2 c hc, hb2 c hc]
      by_cases h1 : c = a
      · subst h1; simp [hna]
      · simp [h1]
    · rw [List.foldl_cons, i3 j hj, hb3 j hj]

end qp
end Acados.Wfqp
