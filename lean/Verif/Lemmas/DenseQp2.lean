import Verif.Lemmas.DenseQp
import Mathlib.Algebra.BigOperators.Field
/-! Lemmas for the dense QP model: feasible sets and multipliers -/
namespace Acados.DenseQp
open Finset
open Acados.Wfqp (veccpAt vecse)
section
variable {K : Type*} [Field K] [LinearOrder K] [IsStrictOrderedRing K]

omit [IsStrictOrderedRing K] in
theorem nosl {q2 : DQp K} (h : q2.ns = 0) (v : Nat → K) (i : Nat) : sl q2 v i = 0 ∧ su q2 v i = 0 := by
  unfold sl su Soft; simp [h]

section
variable {q q2 : DQp K} (S : Stacked q q2) (hq : WF q) (hns : 0 < q.ns)
include S hq hns

omit [IsStrictOrderedRing K] hq hns in
theorem Stacked.obj_eq (v : Nat → K) : obj q2 v = obj q v := by
  unfold obj
  rw [S.ns, S.nv]
  simp only [Nat.mul_zero, range_zero, sum_empty, add_zero]
  have hH : ∀ i ∈ range (q.nv + 2 * q.ns), ∑ j ∈ range (q.nv + 2 * q.ns), q2.H i j * v i * v j
      = (if i < q.nv then ∑ j ∈ range q.nv, q.H i j * v i * v j else 0)
        + (if i < q.nv then 0 else q.Z (i - q.nv) * v i * v i) := by
    intro i hi
    have : ∀ j ∈ range (q.nv + 2 * q.ns), q2.H i j * v i * v j
        = (if j < q.nv then (if i < q.nv then q.H i j * v i * v j else 0) else 0)
          + (if j = i then 1 else 0) * (if j < q.nv then 0 else q.Z (j - q.nv) * v j * v j) := by
      intro j hj
      rw [S.H i (mem_range.mp hi) j (mem_range.mp hj)]
      by_cases h1 : i < q.nv
      · by_cases h2 : j < q.nv
        · rw [if_pos ⟨h1, h2⟩, if_pos h2, if_pos h1, if_pos h2]; ring
        · rw [if_neg (by omega), if_neg (by omega), if_neg h2, if_neg (by omega)]; ring
      · by_cases h2 : j < q.nv
        · rw [if_neg (by omega), if_neg (by omega), if_pos h2, if_neg h1, if_pos h2]; ring
        · by_cases h3 : i = j
          · subst h3
            rw [if_neg (by omega), if_pos ⟨rfl, by omega⟩, if_neg h2, if_pos rfl, if_neg h2]; ring
          · rw [if_neg (by omega), if_neg (by omega), if_neg h2, if_neg (fun h => h3 h.symm)]; ring
    rw [sum_congr rfl this, sum_add_distrib, sum_lt_ite _ _ (by omega), sum_single _ _ (mem_range.mp hi)]
    congr 1
    by_cases h1 : i < q.nv
    · rw [if_pos h1]; exact sum_congr rfl fun j _ => if_pos h1
    · rw [if_neg h1]; exact sum_eq_zero fun j _ => if_neg h1
  rw [sum_congr rfl hH, sum_add_distrib, sum_lt_ite _ _ (by omega)]
  have e1 : ∑ i ∈ range (q.nv + 2 * q.ns), (if i < q.nv then 0 else q.Z (i - q.nv) * v i * v i)
      = ∑ t ∈ range (2 * q.ns), q.Z t * v (q.nv + t) * v (q.nv + t) := by
    rw [sum_range_add, sum_eq_zero (fun r hr => if_pos (mem_range.mp hr)), zero_add]
    refine sum_congr rfl fun t _ => ?_
    rw [if_neg (by omega), Nat.add_sub_cancel_left]
  have e2 : ∑ i ∈ range (q.nv + 2 * q.ns), q2.gz i * v i
      = ∑ i ∈ range q.nv, q.gz i * v i + ∑ t ∈ range (2 * q.ns), q.gz (q.nv + t) * v (q.nv + t) := by
    rw [sum_congr rfl fun i hi => by rw [S.gz i (mem_range.mp hi)], sum_range_add]
  rw [e1, e2, sum_add_distrib, ← sum_div]
  ring

theorem Stacked.sound (hid : ∀ j, j < q.nb → q.idxsRev j = -1 → q.idxb j = j)
    (hls : ∀ t, t < 2 * q.ns → 0 ≤ slb q t) (v : Nat → K) (hf : Feasible (unmasked q2) v) : Feasible q v := by
  have one : (1 : K) ≠ 0 := one_ne_zero
  have hlo : ∀ i, i < q2.nb + q2.ng → q2.d i ≤ row q2 v i := fun i hi => by
    have := hf.lower i hi one
    rwa [(nosl (q2 := unmasked q2) S.ns v i).1, add_zero] at this
  have hup : ∀ i, i < q2.nb + q2.ng → row q2 v i ≤ -q2.d (q2.nb + q2.ng + i) := fun i hi => by
    have := hf.upper i hi one
    rwa [(nosl (q2 := unmasked q2) S.ns v i).2, sub_zero] at this
  have hsl : ∀ t, t < 2 * q.ns → slb q t ≤ v (q.nv + t) := fun t ht => by
    have := hlo (Nat.count (HH q) q.nb + t) (by rw [S.nb]; omega)
    rwa [S.row_slk hq v t ht, S.slkL t ht] at this
  have hpos : ∀ t, t < 2 * q.ns → 0 ≤ v (q.nv + t) := fun t ht => (hls t ht).trans (hsl t ht)
  have soft : ∀ i, SS q i ↔ Soft q i := fun i => by unfold Soft SS; exact (and_iff_right (by omega)).symm
  refine ⟨?_, ?_, ?_, fun t ht _ => hsl t ht⟩
  · intro e he
    have := hf.eq e (by change e < q2.ne; rw [S.ne]; exact he)
    change ∑ j ∈ range q2.nv, q2.A e j * v j = q2.b e at this
    rw [S.b e he, S.nv] at this
    rw [← this, ← sum_lt_ite q.nv (q.nv + 2 * q.ns) (by omega)]
    refine sum_congr rfl fun j hj => ?_
    rw [S.A e he j (mem_range.mp hj)]
    split <;> simp
  · intro i hi _
    unfold lo sl
    by_cases hb : i < q.nb
    · by_cases h : SS q i
      · have := hlo (q2.nb + (q.ng + Nat.count (SS q) i))
          (by have := Nat.count_strict_mono h hb; rw [S.ng]; omega)
        rw [S.row_box hq v i hb h, S.boxL i hb h] at this
        have h1 := hpos (q.ns + slackOf q i) (by have := hq.slack_lt i hi h; omega)
        rw [← Nat.add_assoc] at h1
        rw [if_pos ((soft i).mp h)]; linarith
      · have := hlo (Nat.count (HH q) i) (by have := Nat.count_strict_mono (p := HH q) h hb; rw [S.nb]; omega)
        rw [S.row_hard hq v i hb h, S.hardL i hb h] at this
        rw [if_neg (fun h' => h ((soft i).mpr h')), add_zero]
        unfold row; rw [if_pos hb, hid i hb (not_not.mp h)]; exact this
    · obtain ⟨c, rfl⟩ : ∃ c, i = q.nb + c := ⟨i - q.nb, by omega⟩
      have hc : c < q.ng := by omega
      have := hlo (q2.nb + c) (by rw [S.ng]; omega)
      rw [S.row_gen hq v c hc, S.genL c hc] at this
      by_cases h : SS q (q.nb + c)
      · rw [if_pos h] at this
        have h1 := hpos (q.ns + slackOf q (q.nb + c)) (by have := hq.slack_lt _ hi h; omega)
        rw [← Nat.add_assoc] at h1
        rw [if_pos ((soft _).mp h)]; linarith
      · rw [if_neg h] at this
        rw [if_neg (fun h' => h ((soft _).mpr h'))]; exact this
  · intro i hi _
    unfold up su
    by_cases hb : i < q.nb
    · by_cases h : SS q i
      · have := hup (q2.nb + (q.ng + Nat.count (SS q) i))
          (by have := Nat.count_strict_mono h hb; rw [S.ng]; omega)
        rw [S.row_box hq v i hb h, S.boxU i hb h] at this
        have h1 := hpos (slackOf q i) (by have := hq.slack_lt i hi h; omega)
        rw [if_pos ((soft i).mp h)]; linarith
      · have := hup (Nat.count (HH q) i) (by have := Nat.count_strict_mono (p := HH q) h hb; rw [S.nb]; omega)
        rw [S.row_hard hq v i hb h, S.hardU i hb h] at this
        rw [if_neg (fun h' => h ((soft i).mpr h')), sub_zero]
        unfold row; rw [if_pos hb, hid i hb (not_not.mp h)]; exact this
    · obtain ⟨c, rfl⟩ : ∃ c, i = q.nb + c := ⟨i - q.nb, by omega⟩
      have hc : c < q.ng := by omega
      have := hup (q2.nb + c) (by rw [S.ng]; omega)
      rw [S.row_gen hq v c hc, S.genU c hc] at this
      by_cases h : SS q (q.nb + c)
      · rw [if_pos h] at this
        have h1 := hpos (slackOf q (q.nb + c)) (by have := hq.slack_lt _ hi h; omega)
        rw [if_pos ((soft _).mp h)]; linarith
      · rw [if_neg h, add_zero] at this
        rw [if_neg (fun h' => h ((soft _).mpr h')), sub_zero]; exact this

/-- the smallest slacks for the variables of `v` -/
def minSlack (q : DQp K) (v : Nat → K) : Nat → K := fun k =>
  if k < q.nv then v k
  else if k < q.nv + q.ns then max 0 (lo q (idxsOf q (k - q.nv)) - row q v (idxsOf q (k - q.nv)))
  else max 0 (row q v (idxsOf q (k - q.nv - q.ns)) - up q (idxsOf q (k - q.nv - q.ns)))

omit S hns in
theorem row_minSlack (v : Nat → K) (i : Nat) (hi : i < q.nb + q.ng) : row q (minSlack q v) i = row q v i := by
  unfold row
  by_cases hb : i < q.nb
  · rw [if_pos hb, if_pos hb]; unfold minSlack; rw [if_pos (hq.idxb i hb)]
  · rw [if_neg hb, if_neg hb]
    refine sum_congr rfl fun j hj => ?_
    unfold minSlack; rw [if_pos (mem_range.mp hj)]

omit S hns in
theorem minSlack_l (v : Nat → K) (i : Nat) (hi : i < q.nb + q.ng) (h : SS q i) :
    minSlack q v (q.nv + slackOf q i) = max 0 (lo q i - row q v i) := by
  have := hq.slack_lt i hi h
  unfold minSlack
  rw [if_neg (by omega), if_pos (by omega), Nat.add_sub_cancel_left, idxsOf_eq hq i hi h]

omit S hns in
theorem minSlack_u (v : Nat → K) (i : Nat) (hi : i < q.nb + q.ng) (h : SS q i) :
    minSlack q v (q.nv + q.ns + slackOf q i) = max 0 (row q v i - up q i) := by
  unfold minSlack
  rw [if_neg (by omega), if_neg (by omega),
    show q.nv + q.ns + slackOf q i - q.nv - q.ns = slackOf q i by omega, idxsOf_eq hq i hi h]

/-- the slacks of a feasible point are at least the minimal ones -/
theorem minSlack_le (hm : ∀ i, q.mask i = 1) (h0 : ∀ t, t < 2 * q.ns → slb q t = 0) (v : Nat → K)
    (hf : Feasible q v) (t : Nat) (ht : t < 2 * q.ns) :
    0 ≤ minSlack q v (q.nv + t) ∧ minSlack q v (q.nv + t) ≤ v (q.nv + t) := by
  have one : ∀ i, q.mask i ≠ 0 := fun i => by rw [hm i]; exact one_ne_zero
  have hp : 0 ≤ v (q.nv + t) := by have := hf.slack t ht (one _); rwa [h0 t ht] at this
  by_cases h : t < q.ns
  · obtain ⟨i, h1, h2, h3⟩ := hq.used' t h
    subst h3
    rw [minSlack_l hq v i h1 h2]
    refine ⟨le_max_left _ _, max_le hp ?_⟩
    have := hf.lower i h1 (one _)
    unfold sl at this
    rw [if_pos ⟨by omega, h2⟩] at this
    linarith
  · obtain ⟨i, h1, h2, h3⟩ := hq.used' (t - q.ns) (by omega)
    have e : q.nv + t = q.nv + q.ns + slackOf q i := by omega
    rw [e] at hp ⊢
    rw [minSlack_u hq v i h1 h2]
    refine ⟨le_max_left _ _, max_le hp ?_⟩
    have := hf.upper i h1 (one _)
    unfold su at this
    rw [if_pos ⟨by omega, h2⟩] at this
    linarith

theorem Stacked.complete (hid : ∀ j, j < q.nb → q.idxsRev j = -1 → q.idxb j = j)
    (hm : ∀ i, q.mask i = 1) (h0 : ∀ t, t < 2 * q.ns → slb q t = 0)
    (hlu : ∀ i, i < q.nb + q.ng → q.idxsRev i ≠ -1 → lo q i ≤ up q i) (v : Nat → K) (hf : Feasible q v)
    (hcap : ∀ t, t < 2 * q.ns → v (q.nv + t) ≤ 1000000) : Feasible (unmasked q2) (minSlack q v) := by
  have one : ∀ i, q.mask i ≠ 0 := fun i => by rw [hm i]; exact one_ne_zero
  have hml := minSlack_le S hq hns hm h0 v hf
  have nos := fun i => nosl (q2 := unmasked q2) S.ns (minSlack q v) i
  have hardv : ∀ j, j < q.nb → HH q j → minSlack q v j = row q v j := by
    intro j hj h
    have e := hid j hj (not_not.mp h)
    have hlt := hq.idxb j hj
    unfold minSlack row; rw [if_pos (by omega), if_pos hj, e]
  -- both one-sided inequalities for every row
  have key : ∀ i, i < q2.nb + q2.ng → q2.d i ≤ row q2 (minSlack q v) i ∧
      row q2 (minSlack q v) i ≤ -q2.d (q2.nb + q2.ng + i) := by
    intro i hi
    rcases S.cases i hi with ⟨j, hj, h, rfl⟩ | ⟨t, ht, rfl⟩ | ⟨c, hc, rfl⟩ | ⟨j, hj, h, rfl⟩
    · rw [S.row_hard hq _ j hj h, S.hardL j hj h, S.hardU j hj h, hardv j hj h]
      have a := hf.lower j (by omega) (one _)
      have b := hf.upper j (by omega) (one _)
      unfold lo sl at a; unfold up su at b
      rw [if_neg (fun h' => h h'.2)] at a b
      exact ⟨by linarith, by linarith⟩
    · rw [S.row_slk hq _ t ht, S.slkL t ht, S.slkU t ht, h0 t ht, neg_neg]
      exact ⟨(hml t ht).1, (hml t ht).2.trans (hcap t ht)⟩
    · rw [S.row_gen hq _ c hc, S.genL c hc, S.genU c hc, row_minSlack hq v _ (by omega)]
      by_cases h : SS q (q.nb + c)
      · rw [if_pos h, minSlack_l hq v _ (by omega) h, minSlack_u hq v _ (by omega) h]
        have := hlu (q.nb + c) (by omega) h
        change lo q (q.nb + c) ≤ _ ∧ _ ≤ up q (q.nb + c)
        generalize row q v (q.nb + c) = r at this ⊢
        generalize lo q (q.nb + c) = l at this ⊢
        generalize up q (q.nb + c) = u at this ⊢
        rcases le_total (l - r) 0 with h1 | h1 <;> rcases le_total (r - u) 0 with h2 | h2 <;>
          simp only [max_eq_left, max_eq_right, h1, h2] <;> constructor <;> linarith
      · rw [if_neg h, add_zero]
        have a := hf.lower (q.nb + c) (by omega) (one _)
        have b := hf.upper (q.nb + c) (by omega) (one _)
        unfold lo sl at a; unfold up su at b
        rw [if_neg (fun h' => h h'.2)] at a b
        exact ⟨by linarith, by linarith⟩
    · rw [S.row_box hq _ j hj h, S.boxL j hj h, S.boxU j hj h, row_minSlack hq v _ (by omega),
        minSlack_l hq v _ (by omega) h, minSlack_u hq v _ (by omega) h]
      have := hlu j (by omega) h
      change lo q j ≤ _ ∧ _ ≤ up q j
      generalize row q v j = r at this ⊢
      generalize lo q j = l at this ⊢
      generalize up q j = u at this ⊢
      rcases le_total (l - r) 0 with h1 | h1 <;> rcases le_total (r - u) 0 with h2 | h2 <;>
        simp only [max_eq_left, max_eq_right, h1, h2] <;> constructor <;> linarith
  refine ⟨?_, ?_, ?_, ?_⟩
  · intro e he
    change e < q2.ne at he
    change ∑ j ∈ range q2.nv, q2.A e j * minSlack q v j = q2.b e
    rw [S.ne] at he
    rw [S.b e he, S.nv, ← hf.eq e he, ← sum_lt_ite q.nv (q.nv + 2 * q.ns) (by omega)]
    refine sum_congr rfl fun j hj => ?_
    rw [S.A e he j (mem_range.mp hj)]
    unfold minSlack
    split <;> simp
  · intro i hi _
    rw [(nos i).1, add_zero]; exact (key i hi).1
  · intro i hi _
    rw [(nos i).2, sub_zero]; exact (key i hi).2
  · intro t ht
    change t < 2 * q2.ns at ht
    rw [S.ns] at ht; omega

omit S hq hns in
/-- smaller nonnegative slacks are not more expensive -/
theorem obj_mono (hZ : ∀ t, t < 2 * q.ns → 0 ≤ q.Z t ∧ 0 ≤ q.gz (q.nv + t)) (v w : Nat → K)
    (hx : ∀ j, j < q.nv → v j = w j) (hs : ∀ t, t < 2 * q.ns → 0 ≤ v (q.nv + t) ∧ v (q.nv + t) ≤ w (q.nv + t)) :
    obj q v ≤ obj q w := by
  unfold obj
  have e1 : ∑ i ∈ range q.nv, ∑ j ∈ range q.nv, q.H i j * v i * v j
      = ∑ i ∈ range q.nv, ∑ j ∈ range q.nv, q.H i j * w i * w j :=
    sum_congr rfl fun i hi => sum_congr rfl fun j hj => by
      rw [hx i (mem_range.mp hi), hx j (mem_range.mp hj)]
  have e2 : ∑ i ∈ range q.nv, q.gz i * v i = ∑ i ∈ range q.nv, q.gz i * w i :=
    sum_congr rfl fun i hi => by rw [hx i (mem_range.mp hi)]
  rw [e1, e2]
  refine add_le_add_right (sum_le_sum fun t ht => ?_) _
  obtain ⟨a, b⟩ := hZ t (mem_range.mp ht)
  obtain ⟨c, d⟩ := hs t (mem_range.mp ht)
  have h1 : q.gz (q.nv + t) * v (q.nv + t) ≤ q.gz (q.nv + t) * w (q.nv + t) := mul_le_mul_of_nonneg_left d b
  have h2 : v (q.nv + t) * v (q.nv + t) ≤ w (q.nv + t) * w (q.nv + t) := mul_le_mul d d c (c.trans d)
  have h3 := mul_le_mul_of_nonneg_left h2 a
  have h4 : q.Z t * v (q.nv + t) * v (q.nv + t) / 2 ≤ q.Z t * w (q.nv + t) * w (q.nv + t) / 2 := by
    rw [mul_assoc, mul_assoc]; exact div_le_div_of_nonneg_right h3 (by norm_num)
  linarith
end
end
end Acados.DenseQp
