import Verif.Lemmas.DenseQp3
/-! Lemmas for the dense QP model: optimality conditions -/
namespace Acados.DenseQp
open Finset
section
variable {K : Type*} [Field K] [LinearOrder K] [IsStrictOrderedRing K]

omit [IsStrictOrderedRing K] in
theorem WF.soft_iff {q : DQp K} (hq : WF q) (i : Nat) (hi : i < q.nb + q.ng) : Soft q i ↔ SS q i := by
  constructor
  · exact fun h => h.2
  · intro h
    have := hq.slack_lt i hi h
    exact ⟨by omega, h⟩

theorem kkt_of {q : DQp K} (hq : WF q) (hs : Sorted q) (hm : ∀ i, q.mask i = 1) (hne : q.ne = 0)
    (hZ : ∀ t, t < 2 * q.ns → 0 ≤ q.Z t ∧ 0 ≤ q.gz (q.nv + t)) (h0 : ∀ t, t < 2 * q.ns → slb q t = 0)
    (v y : Nat → K)
    (hsoft : ∀ i, i < q.nb → SS q i → y (q.idxb i) = 0)
    (hyN : ∀ t, t < 2 * q.ns → 0 ≤ y (q.nv + t)) (hyS : ∀ t, t < 2 * q.ns → 0 < y (q.nv + t) → v (q.nv + t) = 0)
    (hv : ∀ t, t < 2 * q.ns → 0 ≤ v (q.nv + t))
    (con : ∀ i, i < q.nb + q.ng → lo q i ≤ row q v i + sl q v i - su q v i ∧
      row q v i + sl q v i - su q v i ≤ up q i)
    (act : ∀ i, i < q.nb + q.ng → (0 < dualOf q y i → row q v i + sl q v i - su q v i = lo q i) ∧
      (dualOf q y i < 0 → row q v i + sl q v i - su q v i = up q i))
    (stat : ∀ j, j < q.nv → ∑ k ∈ range q.nv, q.H j k * v k + q.gz j
      = ∑ i ∈ range (q.nb + q.ng), dualOf q y i * coef q i j)
    (statL : ∀ i, i < q.nb + q.ng → SS q i →
      q.Z (slackOf q i) * v (q.nv + slackOf q i) + q.gz (q.nv + slackOf q i)
        = y (q.nv + slackOf q i) + dualOf q y i)
    (statU : ∀ i, i < q.nb + q.ng → SS q i →
      q.Z (q.ns + slackOf q i) * v (q.nv + q.ns + slackOf q i) + q.gz (q.nv + q.ns + slackOf q i)
        = y (q.nv + q.ns + slackOf q i) - dualOf q y i) :
    Kkt q v (qpoasesLam q y) := by
  obtain ⟨L, M⟩ := lam_spec hq hs hm y hsoft hyN
  -- positive and negative part
  have pn : ∀ x : K, max x 0 - max (-x) 0 = x := by
    intro x
    rcases le_total x 0 with h | h
    · rw [max_eq_right h, max_eq_left (neg_nonneg.mpr h)]; ring
    · rw [max_eq_left h, max_eq_right (neg_nonpos.mpr h)]; ring
  have slN : ∀ i, i < q.nb + q.ng → 0 ≤ sl q v i ∧ 0 ≤ su q v i := by
    intro i hi
    unfold sl su
    by_cases h : Soft q i
    · have := hq.slack_lt i hi h.2
      have a := hv (slackOf q i) (by omega)
      have b := hv (q.ns + slackOf q i) (by omega)
      rw [← Nat.add_assoc] at b
      rw [if_pos h, if_pos h]; exact ⟨a, b⟩
    · rw [if_neg h, if_neg h]; exact ⟨le_rfl, le_rfl⟩
  -- facts for one softened constraint
  have F : ∀ i, i < q.nb + q.ng → SS q i →
      (dualOf q y i < 0 → v (q.nv + slackOf q i) = 0 ∧ -dualOf q y i ≤ y (q.nv + slackOf q i)) ∧
      (0 < dualOf q y i → v (q.nv + q.ns + slackOf q i) = 0 ∧ dualOf q y i ≤ y (q.nv + q.ns + slackOf q i)) := by
    intro i hi h
    have hlt := hq.slack_lt i hi h
    constructor
    · intro hneg
      have e := statL i hi h
      obtain ⟨a, b⟩ := hZ (slackOf q i) (by omega)
      have c := hv (slackOf q i) (by omega)
      have d := mul_nonneg a c
      have : -dualOf q y i ≤ y (q.nv + slackOf q i) := by linarith
      exact ⟨hyS (slackOf q i) (by omega) (by linarith), this⟩
    · intro hpos
      have e := statU i hi h
      obtain ⟨a, b⟩ := hZ (q.ns + slackOf q i) (by omega)
      have c := hv (q.ns + slackOf q i) (by omega)
      have d := mul_nonneg a c
      have g := hyS (q.ns + slackOf q i) (by omega)
      rw [← Nat.add_assoc] at b d g
      have : dualOf q y i ≤ y (q.nv + q.ns + slackOf q i) := by linarith
      exact ⟨g (by linarith), this⟩
  have su0 : ∀ i, i < q.nb + q.ng → 0 < dualOf q y i → su q v i = 0 := by
    intro i hi hp
    unfold su
    by_cases h : Soft q i
    · rw [if_pos h]; exact ((F i hi h.2).2 hp).1
    · rw [if_neg h]
  have sl0 : ∀ i, i < q.nb + q.ng → dualOf q y i < 0 → sl q v i = 0 := by
    intro i hi hp
    unfold sl
    by_cases h : Soft q i
    · rw [if_pos h]; exact ((F i hi h.2).1 hp).1
    · rw [if_neg h]
  -- multipliers of the slack bounds
  have G : ∀ t, t < 2 * q.ns → 0 ≤ qpoasesLam q y (2 * (q.nb + q.ng) + t) ∧
      qpoasesLam q y (2 * (q.nb + q.ng) + t) * v (q.nv + t) = 0 := by
    intro t ht
    by_cases h : t < q.ns
    · obtain ⟨i, h1, h2, h3⟩ := hq.used' t h
      subst h3
      rw [(M i h1 h2).1]
      have e := hyN (slackOf q i) ht
      rcases le_total 0 (dualOf q y i) with hd | hd
      · rw [max_eq_right (neg_nonpos.mpr hd), sub_zero]
        refine ⟨e, ?_⟩
        rcases e.lt_or_eq with h' | h'
        · rw [hyS _ ht h', mul_zero]
        · rw [← h', zero_mul]
      · rcases hd.lt_or_eq with hd' | hd'
        · obtain ⟨a, b⟩ := (F i h1 h2).1 hd'
          rw [max_eq_left (neg_nonneg.mpr hd), a, mul_zero]
          exact ⟨by linarith, rfl⟩
        · rw [hd', neg_zero, max_self, sub_zero]
          refine ⟨e, ?_⟩
          rcases e.lt_or_eq with h' | h'
          · rw [hyS _ ht h', mul_zero]
          · rw [← h', zero_mul]
    · obtain ⟨i, h1, h2, h3⟩ := hq.used' (t - q.ns) (by omega)
      obtain rfl : t = q.ns + slackOf q i := by omega
      have e := hyN (q.ns + slackOf q i) ht
      have f := hyS (q.ns + slackOf q i) ht
      rw [← Nat.add_assoc] at e f ⊢
      rw [(M i h1 h2).2]
      rw [← Nat.add_assoc]
      rcases le_total (dualOf q y i) 0 with hd | hd
      · rw [max_eq_right hd, sub_zero]
        refine ⟨e, ?_⟩
        rcases e.lt_or_eq with h' | h'
        · rw [f h', mul_zero]
        · rw [← h', zero_mul]
      · rcases hd.lt_or_eq with hd' | hd'
        · obtain ⟨a, b⟩ := (F i h1 h2).2 hd'
          rw [max_eq_left hd, a, mul_zero]
          exact ⟨by linarith, rfl⟩
        · rw [← hd', max_self, sub_zero]
          refine ⟨e, ?_⟩
          rcases e.lt_or_eq with h' | h'
          · rw [f h', mul_zero]
          · rw [← h', zero_mul]
  refine ⟨⟨fun e he => by omega, ?_, ?_, ?_⟩, ?_, ?_, ?_, ?_, ?_, ?_, ?_⟩
  · intro i hi _
    have := (con i hi).1; have := (slN i hi).2; linarith
  · intro i hi _
    have := (con i hi).2; have := (slN i hi).1; linarith
  · intro t ht _
    rw [h0 t ht]; exact hv t ht
  · intro k hk
    by_cases h1 : k < q.nb + q.ng
    · rw [(L k h1).1]; exact le_max_right _ _
    · by_cases h2 : k < 2 * (q.nb + q.ng)
      · obtain ⟨i, rfl⟩ : ∃ i, k = q.nb + q.ng + i := ⟨k - (q.nb + q.ng), by omega⟩
        rw [(L i (by omega)).2]; exact le_max_right _ _
      · obtain ⟨t, rfl⟩ : ∃ t, k = 2 * (q.nb + q.ng) + t := ⟨k - 2 * (q.nb + q.ng), by omega⟩
        exact (G t (by omega)).1
  · intro j hj
    rw [stat j hj]
    refine sum_congr rfl fun i hi => ?_
    rw [(L i (mem_range.mp hi)).1, (L i (mem_range.mp hi)).2, pn]
  · intro i hi h
    rw [statL i hi h.2, (L i hi).1, (M i hi h.2).1]
    have := pn (dualOf q y i); linear_combination -this
  · intro i hi h
    rw [statU i hi h.2, (L i hi).2, (M i hi h.2).2]
    have := pn (dualOf q y i); linear_combination this
  · intro i hi
    rw [(L i hi).1]
    rcases le_or_gt (dualOf q y i) 0 with hd | hd
    · rw [max_eq_right hd, zero_mul]
    · have := (act i hi).1 hd
      rw [su0 i hi hd, sub_zero] at this
      rw [this, sub_self, mul_zero]
  · intro i hi
    rw [(L i hi).2]
    rcases le_or_gt 0 (dualOf q y i) with hd | hd
    · rw [max_eq_right (neg_nonpos.mpr hd), zero_mul]
    · have := (act i hi).2 hd
      rw [sl0 i hi hd, add_zero] at this
      rw [← this]; ring
  · intro t ht
    rw [h0 t ht, sub_zero]; exact (G t ht).2

/-- without slacks: a solution of qpOASES gives the optimality conditions -/
theorem kkt_hard (big : K) {q : DQp K} (hq : WF q) (hns : q.ns = 0) (hne : q.ne = 0) (hm : ∀ i, q.mask i = 1)
    (hinj : ∀ i, i < q.nb → ∀ j, j < q.nb → q.idxb i = q.idxb j → i = j) (x y : Nat → K)
    (hx : ∀ j, j < q.nv → -big < x j ∧ x j < big) (hs : QSol (argsOf big q) x y) :
    Kkt q x (qpoasesLam q y) := by
  have nos : ∀ i, i < q.nb + q.ng → ¬ SS q i := fun i hi h => by have := hq.slack_lt i hi h; omega
  have e0 : ∀ i, sl q x i = 0 ∧ su q x i = 0 := fun i => nosl hns x i
  have scl := scatter_in q.nb q.idxb q.d (-big) hinj
  have scu := scatter_in q.nb q.idxb (fun i => -q.d (q.nb + q.ng + i)) big hinj
  have dl : ∀ i, i < q.nb → dualOf q y i = y (q.idxb i) := fun i hi => by
    unfold dualOf; rw [if_pos hi, if_neg (nos i (by omega))]
  have dg : ∀ c, c < q.ng → dualOf q y (q.nb + c) = y (q.nv + c) := fun c hc => by
    unfold dualOf; rw [if_neg (by omega), hns, Nat.add_sub_cancel_left]; rfl
  have rl : ∀ i, i < q.nb → row q x i = x (q.idxb i) := fun i hi => by unfold row; rw [if_pos hi]
  have rg : ∀ c, c < q.ng → row q x (q.nb + c) = ∑ j ∈ range q.nv, q.Ct j c * x j := fun c hc => by
    unfold row; rw [if_neg (by omega), Nat.add_sub_cancel_left]
  refine kkt_of hq (fun i hi j hj h => absurd h (nos i (by omega))) hm hne (fun t ht => by omega)
    (fun t ht => by omega) x y (fun i hi h => absurd h (nos i (by omega))) (fun t ht => by omega)
    (fun t ht => by omega) (fun t ht => by omega) ?_ ?_ ?_ (fun i hi h => absurd h (nos i hi))
    (fun i hi h => absurd h (nos i hi))
  · intro i hi
    rw [(e0 i).1, (e0 i).2, add_zero, sub_zero]
    by_cases hb : i < q.nb
    · rw [rl i hb]
      have := hs.box (q.idxb i) (hq.idxb i hb)
      change scatter .. ≤ _ ∧ _ ≤ scatter .. at this
      rwa [scl.1 i hb, scu.1 i hb] at this
    · obtain ⟨c, rfl⟩ : ∃ c, i = q.nb + c := ⟨i - q.nb, by omega⟩
      rw [rg c (by omega)]
      have := hs.con c (show c < q.ng by omega)
      unfold lo up
      rw [show q.nb + q.ng + (q.nb + c) = 2 * q.nb + q.ng + c by omega]
      exact this
  · intro i hi
    rw [(e0 i).1, (e0 i).2, add_zero, sub_zero]
    by_cases hb : i < q.nb
    · rw [rl i hb, dl i hb]
      have := hs.compB (q.idxb i) (hq.idxb i hb)
      change (_ → _ = scatter ..) ∧ (_ → _ = scatter ..) at this
      rwa [scl.1 i hb, scu.1 i hb] at this
    · obtain ⟨c, rfl⟩ : ∃ c, i = q.nb + c := ⟨i - q.nb, by omega⟩
      rw [rg c (by omega), dg c (by omega)]
      have := hs.compC c (show c < q.ng by omega)
      unfold lo up
      rw [show q.nb + q.ng + (q.nb + c) = 2 * q.nb + q.ng + c by omega]
      exact this
  · intro j hj
    have := hs.stat j hj
    change ∑ k ∈ range q.nv, q.H j k * x k + q.gz j = y j + ∑ c ∈ range q.ng, y (q.nv + c) * q.Ct j c at this
    rw [this, sum_range_add]
    congr 1
    · by_cases he : ∃ i, i < q.nb ∧ q.idxb i = j
      · obtain ⟨i, hi, he⟩ := he
        rw [sum_eq_single_of_mem i (mem_range.mpr hi)]
        · unfold coef; rw [if_pos hi, if_pos he, dl i hi, he, mul_one]
        · intro k hk hki
          unfold coef
          rw [if_pos (mem_range.mp hk), if_neg, mul_zero]
          intro h
          exact hki (hinj k (mem_range.mp hk) i hi (h.trans he.symm))
      · have hn : ∀ i, i < q.nb → q.idxb i ≠ j := fun i hi h => he ⟨i, hi, h⟩
        have c := hs.compB j hj
        change (_ → _ = scatter ..) ∧ (_ → _ = scatter ..) at c
        rw [scl.2 j hn, scu.2 j hn] at c
        have y0 : y j = 0 := by
          rcases lt_trichotomy (y j) 0 with h | h | h
          · exact absurd (c.2 h) (hx j hj).2.ne
          · exact h
          · exact absurd (c.1 h) (hx j hj).1.ne'
        rw [y0]
        symm
        refine sum_eq_zero fun i hi => ?_
        unfold coef
        rw [if_pos (mem_range.mp hi), if_neg (hn i (mem_range.mp hi)), mul_zero]
    · refine sum_congr rfl fun c hc => ?_
      rw [dg c (mem_range.mp hc)]
      unfold coef; rw [if_neg (by omega), Nat.add_sub_cancel_left]

/-- with slacks -/
theorem kkt_soft (big : K) {q q2 : DQp K} (S : Stacked q q2) (hq : WF q) (hns : 0 < q.ns) (hne : q.ne = 0)
    (hm : ∀ i, q.mask i = 1) (hs : Sorted q)
    (hid : ∀ j, j < q.nb → q.idxsRev j = -1 → q.idxb j = j)
    (hinj : ∀ i, i < q.nb → ∀ j, j < q.nb → q.idxb i = q.idxb j → i = j)
    (hZ : ∀ t, t < 2 * q.ns → 0 ≤ q.Z t ∧ 0 ≤ q.gz (q.nv + t)) (h0 : ∀ t, t < 2 * q.ns → slb q t = 0)
    (x y : Nat → K) (hx : ∀ j, j < q.nv → -big < x j ∧ x j < big)
    (hcap : ∀ t, t < 2 * q.ns → x (q.nv + t) < 1000000) (hsol : QSol (argsOf big q2) x y) :
    Kkt q x (qpoasesLam q y) := by
  have hidx : ∀ i, i < q2.nb → (∃ j, j < q.nb ∧ HH q j ∧ i = Nat.count (HH q) j ∧ q2.idxb i = j ∧ q.idxb j = j) ∨
      ∃ t, t < 2 * q.ns ∧ i = Nat.count (HH q) q.nb + t ∧ q2.idxb i = q.nv + t := by
    intro i hi
    rw [S.nb] at hi
    by_cases h1 : i < Nat.count (HH q) q.nb
    · obtain ⟨j, a, b, c⟩ := count_surj (HH q) _ _ h1
      exact Or.inl ⟨j, a, b, c.symm, by rw [← c]; exact S.hardI j a b, hid j a (not_not.mp b)⟩
    · exact Or.inr ⟨i - Nat.count (HH q) q.nb, by omega, by omega, by
        have := S.slkI (i - Nat.count (HH q) q.nb) (by omega)
        rwa [show Nat.count (HH q) q.nb + (i - Nat.count (HH q) q.nb) = i by omega] at this⟩
  have hinj2 : ∀ i, i < q2.nb → ∀ j, j < q2.nb → q2.idxb i = q2.idxb j → i = j := by
    intro i hi j hj he
    rcases hidx i hi with ⟨a, ha, _, hc, hd, hf⟩ | ⟨t, ht, hc, hd⟩ <;>
      rcases hidx j hj with ⟨a', ha', _, hc', hd', hf'⟩ | ⟨t', ht', hc', hd'⟩
    · rw [hc, hc']; congr 1; omega
    · have := hq.idxb a ha; omega
    · have := hq.idxb a' ha'; omega
    · omega
  have scl := scatter_in q2.nb q2.idxb q2.d (-big) hinj2
  have scu := scatter_in q2.nb q2.idxb (fun i => -q2.d (q2.nb + q2.ng + i)) big hinj2
  have n2 : (argsOf big q2).n = q.nv + 2 * q.ns := S.nv
  have m2 : (argsOf big q2).m = q.ng + Nat.count (SS q) q.nb := S.ng
  -- bounds on the slacks
  have slk : ∀ t, t < 2 * q.ns → scatter q2.nb q2.idxb q2.d (-big) (q.nv + t) = 0 ∧
      scatter q2.nb q2.idxb (fun i => -q2.d (q2.nb + q2.ng + i)) big (q.nv + t) = 1000000 := by
    intro t ht
    have hlt : Nat.count (HH q) q.nb + t < q2.nb := by rw [S.nb]; omega
    have e := S.slkI t ht
    have a := scl.1 _ hlt
    have b := scu.1 _ hlt
    rw [e] at a b
    rw [a, b, S.slkL t ht, h0 t ht, S.slkU t ht, neg_neg]
    exact ⟨rfl, rfl⟩
  have hardB : ∀ j, j < q.nb → HH q j → scatter q2.nb q2.idxb q2.d (-big) j = q.d j ∧
      scatter q2.nb q2.idxb (fun i => -q2.d (q2.nb + q2.ng + i)) big j = up q j := by
    intro j hj h
    have hlt : Nat.count (HH q) j < q2.nb := by
      have := Nat.count_strict_mono (p := HH q) h hj; rw [S.nb]; omega
    have e := S.hardI j hj h
    have a := scl.1 _ hlt
    have b := scu.1 _ hlt
    rw [e] at a b
    rw [a, b, S.hardL j hj h, S.hardU j hj h]
    exact ⟨rfl, rfl⟩
  -- variables without bound
  have free : ∀ j, j < q.nv → (∀ i, i < q.nb → HH q i → i ≠ j) → y j = 0 := by
    intro j hj hn
    have hn2 : ∀ i, i < q2.nb → q2.idxb i ≠ j := by
      intro i hi he
      rcases hidx i hi with ⟨a, ha, hb, _, hd, _⟩ | ⟨t, ht, hc, hd⟩
      · exact hn a ha hb (hd.symm.trans he)
      · omega
    have c := hsol.compB j (by rw [n2]; omega)
    change (_ → _ = scatter ..) ∧ (_ → _ = scatter ..) at c
    rw [scl.2 j hn2, scu.2 j hn2] at c
    rcases lt_trichotomy (y j) 0 with h | h | h
    · exact absurd (c.2 h) (hx j hj).2.ne
    · exact h
    · exact absurd (c.1 h) (hx j hj).1.ne'
  have softfree : ∀ i, i < q.nb → SS q i → y (q.idxb i) = 0 := by
    intro i hi h
    refine free _ (hq.idxb i hi) fun j hj hh he => ?_
    have := hid j hj (not_not.mp hh)
    have := hinj j hj i hi (this.trans he)
    subst this
    exact hh h
  have sv : ∀ i, i < q.nb + q.ng → row q x i + sl q x i - su q x i = row q x i +
      (if SS q i then x (q.nv + slackOf q i) - x (q.nv + q.ns + slackOf q i) else 0) := by
    intro i hi
    unfold sl su
    by_cases h : SS q i
    · rw [if_pos ((hq.soft_iff i hi).mpr h), if_pos ((hq.soft_iff i hi).mpr h), if_pos h]; ring
    · rw [if_neg (fun h' => h ((hq.soft_iff i hi).mp h')), if_neg (fun h' => h ((hq.soft_iff i hi).mp h')), if_neg h]
      ring
  have dg : ∀ c, c < q.ng → dualOf q y (q.nb + c) = y (q.nv + 2 * q.ns + c) := fun c hc => by
    unfold dualOf; rw [if_neg (by omega), Nat.add_sub_cancel_left]
  have db : ∀ j, j < q.nb → SS q j → dualOf q y j = y (q.nv + 2 * q.ns + (q.ng + Nat.count (SS q) j)) :=
    fun j hj h => by unfold dualOf; rw [if_pos hj, if_pos h]
  have dh : ∀ j, j < q.nb → HH q j → dualOf q y j = y j :=
    fun j hj h => by unfold dualOf; rw [if_pos hj, if_neg h, hid j hj (not_not.mp h)]
  have rowh : ∀ j, j < q.nb → HH q j → row q x j = x j :=
    fun j hj h => by unfold row; rw [if_pos hj, hid j hj (not_not.mp h)]
  have upeq : ∀ c, (argsOf big q2).ubA c = -q2.d (q2.nb + q2.ng + (q2.nb + c)) := fun c => by
    change -q2.d (2 * q2.nb + q2.ng + c) = _
    congr 2; omega
  have hlt' : ∀ j, j < q.nb → SS q j → Nat.count (SS q) j < Nat.count (SS q) q.nb :=
    fun j hj h => Nat.count_strict_mono h hj
  -- constraints of the stacked QP, one by one
  have all : ∀ i, i < q.nb + q.ng →
      (lo q i ≤ row q x i + sl q x i - su q x i ∧ row q x i + sl q x i - su q x i ≤ up q i) ∧
      ((0 < dualOf q y i → row q x i + sl q x i - su q x i = lo q i) ∧
      (dualOf q y i < 0 → row q x i + sl q x i - su q x i = up q i)) := by
    intro i hi
    rw [sv i hi]
    by_cases hb : i < q.nb
    · by_cases h : SS q i
      · have hc : q.ng + Nat.count (SS q) i < (argsOf big q2).m := by
          have := hlt' i hb h; rw [m2]; omega
        have a := hsol.con _ hc
        have b := hsol.compC _ hc
        rw [upeq, S.boxU i hb h] at a b
        rw [n2] at b
        rw [if_pos h, db i hb h, ← S.con_box hq x i hb h]
        change q2.d _ ≤ _ ∧ _ at a
        change (_ → _ = q2.d _) ∧ _ at b
        rw [S.boxL i hb h] at a b
        rw [← n2]
        rw [← n2] at b
        exact ⟨a, b⟩
      · have hv : i < q.nv := by have := hq.idxb i hb; have := hid i hb (not_not.mp h); omega
        have a := hsol.box i (by rw [n2]; omega)
        have b := hsol.compB i (by rw [n2]; omega)
        change scatter .. ≤ _ ∧ _ ≤ scatter .. at a
        change (_ → _ = scatter ..) ∧ (_ → _ = scatter ..) at b
        rw [(hardB i hb h).1, (hardB i hb h).2] at a b
        rw [if_neg h, add_zero, rowh i hb h, dh i hb h]
        exact ⟨a, b⟩
    · obtain ⟨c, rfl⟩ : ∃ c, i = q.nb + c := ⟨i - q.nb, by omega⟩
      have hc0 : c < q.ng := by omega
      have hc : c < (argsOf big q2).m := by rw [m2]; omega
      have a := hsol.con _ hc
      have b := hsol.compC _ hc
      rw [upeq, S.genU c hc0] at a b
      rw [dg c hc0, ← S.con_gen hq x c hc0]
      change q2.d _ ≤ _ ∧ _ at a
      change (_ → _ = q2.d _) ∧ _ at b
      rw [S.genL c hc0] at a b
      rw [n2] at b
      rw [← n2]
      rw [← n2] at b
      exact ⟨a, b⟩
  -- stationarity of the stacked QP
  have statq : ∀ j, j < q.nv + 2 * q.ns → ∑ k ∈ range (q.nv + 2 * q.ns), q2.H j k * x k + q2.gz j
      = y j + (∑ c ∈ range q.ng, dualOf q y (q.nb + c) * q2.Ct j c
        + ∑ i ∈ range q.nb, if SS q i then dualOf q y i * q2.Ct j (q.ng + Nat.count (SS q) i) else 0) := by
    intro j hj
    have := hsol.stat j (by rw [n2]; exact hj)
    rw [n2, m2] at this
    change ∑ k ∈ range (q.nv + 2 * q.ns), q2.H j k * x k + q2.gz j = y j + ∑ c ∈ range _, y _ * q2.Ct j c at this
    rw [this, sum_range_add, sum_count (SS q) (fun k => y (q.nv + 2 * q.ns + (q.ng + k)) * q2.Ct j (q.ng + k))]
    congr 2
    · exact sum_congr rfl fun c hc => by rw [dg c (mem_range.mp hc)]
    · refine sum_congr rfl fun i hi => ?_
      by_cases h : SS q i
      · rw [if_pos h, if_pos h, db i (mem_range.mp hi) h]
      · rw [if_neg h, if_neg h]
  have statS : ∀ t, t < 2 * q.ns → q.Z t * x (q.nv + t) + q.gz (q.nv + t)
      = y (q.nv + t) + (∑ c ∈ range q.ng, dualOf q y (q.nb + c) * q2.Ct (q.nv + t) c
        + ∑ i ∈ range q.nb, if SS q i then dualOf q y i * q2.Ct (q.nv + t) (q.ng + Nat.count (SS q) i) else 0) := by
    intro t ht
    rw [← statq (q.nv + t) (by omega), S.gz _ (by omega)]
    congr 1
    symm
    rw [sum_eq_single_of_mem (q.nv + t) (mem_range.mpr (by omega))]
    · rw [S.H _ (by omega) _ (by omega), if_neg (by omega), if_pos ⟨rfl, by omega⟩, Nat.add_sub_cancel_left]
    · intro k hk hne'
      rw [S.H _ (by omega) _ (mem_range.mp hk), if_neg (by omega), if_neg (fun h => hne' h.1.symm), zero_mul]
  -- the constraint sums at a slack variable
  have cs : ∀ i, i < q.nb + q.ng → SS q i → ∀ (t : Nat) (ht : t < 2 * q.ns) (e : K),
      (∀ k, k < q.nb + q.ng → SS q k → (if q.nv + t = q.nv + slackOf q k then (1 : K) else 0)
          - (if q.nv + t = q.nv + q.ns + slackOf q k then 1 else 0) = if k = i then e else 0) →
      (∑ c ∈ range q.ng, dualOf q y (q.nb + c) * q2.Ct (q.nv + t) c
        + ∑ i ∈ range q.nb, if SS q i then dualOf q y i * q2.Ct (q.nv + t) (q.ng + Nat.count (SS q) i) else 0)
        = e * dualOf q y i := by
    intro i hi hsi t ht e he
    have g1 : ∀ c ∈ range q.ng, dualOf q y (q.nb + c) * q2.Ct (q.nv + t) c
        = if q.nb + c = i then e * dualOf q y i else 0 := by
      intro c hc
      have hc := mem_range.mp hc
      rw [S.gen_coef hq c hc _ (by omega), if_neg (by omega), zero_add]
      by_cases h : SS q (q.nb + c)
      · rw [if_pos h, he _ (by omega) h]
        by_cases h' : q.nb + c = i
        · rw [if_pos h', if_pos h', h', mul_comm]
        · rw [if_neg h', if_neg h', mul_zero]
      · rw [if_neg h, if_neg (c := q.nb + c = i) (fun h' => h (by rw [h']; exact hsi)), mul_zero]
    have g2 : ∀ k ∈ range q.nb, (if SS q k then dualOf q y k * q2.Ct (q.nv + t) (q.ng + Nat.count (SS q) k) else 0)
        = if k = i then e * dualOf q y i else 0 := by
      intro k hk
      have hk := mem_range.mp hk
      have hbk := hq.idxb k hk
      by_cases h : SS q k
      · rw [if_pos h, S.box_coef hq k hk h _ (by omega), if_neg (by omega), zero_add, he k (by omega) h]
        by_cases h' : k = i
        · rw [if_pos h', if_pos h', h', mul_comm]
        · rw [if_neg h', if_neg h', mul_zero]
      · rw [if_neg h, if_neg (c := k = i) (fun h' => h (by rw [h']; exact hsi))]
    rw [sum_congr rfl g1, sum_congr rfl g2]
    have hsum : ∑ k ∈ range (q.nb + q.ng), (if k = i then e * dualOf q y i else 0) = e * dualOf q y i := by
      rw [sum_ite_eq' (range (q.nb + q.ng)) i, if_pos (mem_range.mpr hi)]
    rw [sum_range_add] at hsum
    rw [add_comm]; exact hsum
  refine kkt_of hq hs hm hne hZ h0 x y softfree ?_ ?_ ?_ (fun i hi => (all i hi).1) (fun i hi => (all i hi).2) ?_ ?_ ?_
  · intro t ht
    have c := (hsol.compB (q.nv + t) (by rw [n2]; omega)).2
    change _ → _ = scatter .. at c
    rw [(slk t ht).2] at c
    by_contra h
    exact (hcap t ht).ne (c (not_le.mp h))
  · intro t ht h
    have c := (hsol.compB (q.nv + t) (by rw [n2]; omega)).1
    change _ → _ = scatter .. at c
    rw [(slk t ht).1] at c
    exact c h
  · intro t ht
    have c := (hsol.box (q.nv + t) (by rw [n2]; omega)).1
    change scatter .. ≤ _ at c
    rwa [(slk t ht).1] at c
  · intro j hj
    have := statq j (by omega)
    rw [S.gz j (by omega)] at this
    have eH : ∑ k ∈ range (q.nv + 2 * q.ns), q2.H j k * x k = ∑ k ∈ range q.nv, q.H j k * x k := by
      rw [← sum_lt_ite q.nv (q.nv + 2 * q.ns) (by omega)]
      refine sum_congr rfl fun k hk => ?_
      rw [S.H j (by omega) k (mem_range.mp hk)]
      by_cases h : k < q.nv
      · rw [if_pos ⟨hj, h⟩, if_pos h]
      · rw [if_neg (by omega), if_neg (by omega), if_neg h, zero_mul]
    rw [eH] at this
    rw [this, sum_range_add]
    have g1 : ∑ c ∈ range q.ng, dualOf q y (q.nb + c) * q2.Ct j c
        = ∑ c ∈ range q.ng, dualOf q y (q.nb + c) * coef q (q.nb + c) j := by
      refine sum_congr rfl fun c hc => ?_
      have hc := mem_range.mp hc
      rw [S.gen_coef hq c hc _ (by omega), if_pos hj]
      unfold coef
      rw [if_neg (c := q.nb + c < q.nb) (by omega), Nat.add_sub_cancel_left]
      by_cases h : SS q (q.nb + c)
      · have := hq.slack_lt _ (by omega) h
        rw [if_pos h, if_neg (by omega), if_neg (by omega)]; ring
      · rw [if_neg h, add_zero]
    have g2 : (y j + ∑ i ∈ range q.nb, if SS q i then dualOf q y i * q2.Ct j (q.ng + Nat.count (SS q) i) else 0)
        = ∑ i ∈ range q.nb, dualOf q y i * coef q i j := by
      have yj : y j = ∑ i ∈ range q.nb, if SS q i then 0 else dualOf q y i * coef q i j := by
        by_cases he : j < q.nb ∧ HH q j
        · rw [sum_eq_single_of_mem j (mem_range.mpr he.1)]
          · rw [if_neg he.2, dh j he.1 he.2]
            unfold coef; rw [if_pos he.1, if_pos (hid j he.1 (not_not.mp he.2)), mul_one]
          · intro k hk hkj
            have hk := mem_range.mp hk
            by_cases h : SS q k
            · rw [if_pos h]
            · rw [if_neg h]
              unfold coef
              rw [if_pos hk, hid k hk (not_not.mp h), if_neg hkj, mul_zero]
        · rw [free j hj fun i hi hh he' => he (he' ▸ ⟨hi, hh⟩)]
          symm
          refine sum_eq_zero fun k hk => ?_
          have hk := mem_range.mp hk
          by_cases h : SS q k
          · rw [if_pos h]
          · rw [if_neg h]
            unfold coef
            rw [if_pos hk, hid k hk (not_not.mp h), if_neg, mul_zero]
            exact fun he' => he (he' ▸ ⟨hk, h⟩)
      rw [yj, ← sum_add_distrib]
      refine sum_congr rfl fun i hi => ?_
      have hi := mem_range.mp hi
      by_cases h : SS q i
      · have := hq.slack_lt i (by omega) h
        rw [if_pos h, if_pos h, zero_add, S.box_coef hq i hi h _ (by omega), if_neg (c := j = q.nv + slackOf q i) (by omega),
          if_neg (c := j = q.nv + q.ns + slackOf q i) (by omega), sub_zero, add_zero]
        unfold coef
        rw [if_pos hi]
        by_cases h' : j = q.idxb i
        · rw [if_pos h', if_pos h'.symm]
        · rw [if_neg h', if_neg (fun h2 => h' h2.symm)]
      · rw [if_neg h, if_neg h, add_zero]
    rw [g1, ← g2]; ring
  · intro i hi h
    have hlt := hq.slack_lt i hi h
    rw [statS _ (by omega), cs i hi h (slackOf q i) (by omega) 1, one_mul]
    intro k hk hks
    have hk' := hq.slack_lt k hk hks
    rw [if_neg (c := q.nv + slackOf q i = q.nv + q.ns + slackOf q k) (by omega), sub_zero]
    by_cases he : k = i
    · rw [if_pos (by rw [he]), if_pos he]
    · rw [if_neg, if_neg he]
      intro h'
      exact he (hq.slack_inj k i hk hi hks h (by omega))
  · intro i hi h
    have hlt := hq.slack_lt i hi h
    have := statS (q.ns + slackOf q i) (by omega)
    rw [cs i hi h (q.ns + slackOf q i) (by omega) (-1), ← Nat.add_assoc] at this
    · rw [this]; ring
    · intro k hk hks
      have hk' := hq.slack_lt k hk hks
      rw [if_neg (c := q.nv + (q.ns + slackOf q i) = q.nv + slackOf q k) (by omega), zero_sub]
      by_cases he : k = i
      · rw [if_pos (by rw [he]; omega), if_pos he]
      · rw [if_neg, if_neg he, neg_zero]
        intro h'
        exact he (hq.slack_inj k i hk hi hks h (by omega))

omit [IsStrictOrderedRing K] in
/-- sum over the slacks as a sum over the softened constraints -/
theorem sum_slack {q : DQp K} (hq : WF q) (f : Nat → K) :
    ∑ t ∈ range q.ns, f t = ∑ i ∈ range (q.nb + q.ng), if SS q i then f (slackOf q i) else 0 := by
  rw [← sum_filter]
  symm
  refine sum_bij (fun i _ => slackOf q i) ?_ ?_ ?_ ?_
  · intro i hi
    rw [mem_filter, mem_range] at hi
    exact mem_range.mpr (hq.slack_lt i hi.1 hi.2)
  · intro i hi j hj he
    rw [mem_filter, mem_range] at hi hj
    exact hq.slack_inj i j hi.1 hj.1 hi.2 hj.2 he
  · intro t ht
    obtain ⟨i, h1, h2, h3⟩ := hq.used' t (mem_range.mp ht)
    exact ⟨i, by rw [mem_filter, mem_range]; exact ⟨h1, h2⟩, h3⟩
  · intro i _; rfl

omit [LinearOrder K] [IsStrictOrderedRing K] in
theorem quad_expand (n : Nat) (H : Nat → Nat → K) (hsym : ∀ i, i < n → ∀ j, j < n → H i j = H j i) (v w : Nat → K) :
    ∑ i ∈ range n, ∑ j ∈ range n, H i j * w i * w j = ∑ i ∈ range n, ∑ j ∈ range n, H i j * v i * v j
      + ∑ i ∈ range n, ∑ j ∈ range n, H i j * (w i - v i) * (w j - v j)
      + 2 * ∑ i ∈ range n, (∑ j ∈ range n, H i j * v j) * (w i - v i) := by
  have sw : ∑ i ∈ range n, (∑ j ∈ range n, H i j * v j) * (w i - v i)
      = ∑ i ∈ range n, ∑ j ∈ range n, H i j * v i * (w j - v j) := by
    rw [sum_comm]
    refine sum_congr rfl fun i hi => ?_
    rw [sum_mul]
    exact sum_congr rfl fun j hj => by rw [hsym i (mem_range.mp hi) j (mem_range.mp hj)]
  have sw' : ∑ i ∈ range n, (∑ j ∈ range n, H i j * v j) * (w i - v i)
      = ∑ i ∈ range n, ∑ j ∈ range n, H i j * v j * (w i - v i) := sum_congr rfl fun i _ => sum_mul ..
  rw [two_mul]
  nth_rw 1 [sw]
  rw [sw', ← sum_add_distrib, ← sum_add_distrib, ← sum_add_distrib]
  refine sum_congr rfl fun i _ => ?_
  rw [← sum_add_distrib, ← sum_add_distrib, ← sum_add_distrib]
  exact sum_congr rfl fun j _ => by ring

omit [IsStrictOrderedRing K] in
theorem row_sub {q : DQp K} (hq : WF q) (v w : Nat → K) (i : Nat) (hi : i < q.nb + q.ng) :
    ∑ j ∈ range q.nv, coef q i j * (w j - v j) = row q w i - row q v i := by
  unfold row coef
  by_cases hb : i < q.nb
  · simp only [if_pos hb]
    have : ∀ j ∈ range q.nv, (if q.idxb i = j then (1 : K) else 0) * (w j - v j)
        = (if j = q.idxb i then 1 else 0) * (w j - v j) := fun j _ => by
      by_cases h : j = q.idxb i
      · rw [if_pos h, if_pos h.symm]
      · rw [if_neg h, if_neg (fun h' => h h'.symm)]
    rw [sum_congr rfl this, sum_single _ _ (hq.idxb i hb)]
  · simp only [if_neg hb]
    rw [← sum_sub_distrib]
    exact sum_congr rfl fun j _ => by ring

theorem kkt_optimal (q : DQp K) (hq : WF q) (hm : ∀ i, q.mask i = 1)
    (hsym : ∀ i, i < q.nv → ∀ j, j < q.nv → q.H i j = q.H j i)
    (hpsd : ∀ d : Nat → K, 0 ≤ ∑ i ∈ range q.nv, ∑ j ∈ range q.nv, q.H i j * d i * d j)
    (hZ : ∀ t, t < 2 * q.ns → 0 ≤ q.Z t) (v lam : Nat → K) (hk : Kkt q v lam) (w : Nat → K) (hw : Feasible q w) :
    obj q v ≤ obj q w := by
  have one : ∀ i, q.mask i ≠ 0 := fun i => by rw [hm i]; exact one_ne_zero
  -- linear part: variables
  have E1 : ∑ j ∈ range q.nv, (∑ k ∈ range q.nv, q.H j k * v k + q.gz j) * (w j - v j)
      = ∑ i ∈ range (q.nb + q.ng), (lam i - lam (q.nb + q.ng + i)) * (row q w i - row q v i) := by
    have : ∀ j ∈ range q.nv, (∑ k ∈ range q.nv, q.H j k * v k + q.gz j) * (w j - v j)
        = ∑ i ∈ range (q.nb + q.ng), (lam i - lam (q.nb + q.ng + i)) * (coef q i j * (w j - v j)) := by
      intro j hj
      rw [hk.stat j (mem_range.mp hj), sum_mul]
      exact sum_congr rfl fun i _ => by ring
    rw [sum_congr rfl this, sum_comm]
    refine sum_congr rfl fun i hi => ?_
    rw [← mul_sum, row_sub hq v w i (mem_range.mp hi)]
  -- linear part: slacks
  have E2 : ∑ t ∈ range (2 * q.ns), (q.Z t * v (q.nv + t) + q.gz (q.nv + t)) * (w (q.nv + t) - v (q.nv + t))
      = ∑ i ∈ range (q.nb + q.ng), (lam i * (sl q w i - sl q v i) + lam (q.nb + q.ng + i) * (su q w i - su q v i))
        + ∑ t ∈ range (2 * q.ns), lam (2 * (q.nb + q.ng) + t) * (w (q.nv + t) - v (q.nv + t)) := by
    rw [two_mul q.ns, sum_range_add _ q.ns q.ns, sum_range_add _ q.ns q.ns, sum_slack hq, sum_slack hq, sum_slack hq
      (fun t => lam (2 * (q.nb + q.ng) + t) * (w (q.nv + t) - v (q.nv + t))), sum_slack hq
      (fun t => lam (2 * (q.nb + q.ng) + (q.ns + t)) * (w (q.nv + (q.ns + t)) - v (q.nv + (q.ns + t)))),
      ← sum_add_distrib, ← sum_add_distrib, ← sum_add_distrib]
    refine sum_congr rfl fun i hi => ?_
    have hi := mem_range.mp hi
    unfold sl su
    by_cases h : SS q i
    · have hS := (hq.soft_iff i hi).mpr h
      simp only [if_pos h, if_pos hS]
      have a := hk.statL i hi hS
      have b := hk.statU i hi hS
      rw [a]
      simp only [← Nat.add_assoc]
      rw [b]; ring
    · have hS : ¬ Soft q i := fun h' => h ((hq.soft_iff i hi).mp h')
      simp only [if_neg h, if_neg hS]; ring
  -- both together are nonnegative
  have P : 0 ≤ ∑ i ∈ range (q.nb + q.ng), (lam i - lam (q.nb + q.ng + i)) * (row q w i - row q v i)
      + (∑ i ∈ range (q.nb + q.ng), (lam i * (sl q w i - sl q v i) + lam (q.nb + q.ng + i) * (su q w i - su q v i))
        + ∑ t ∈ range (2 * q.ns), lam (2 * (q.nb + q.ng) + t) * (w (q.nv + t) - v (q.nv + t))) := by
    rw [← add_assoc, ← sum_add_distrib]
    refine add_nonneg (sum_nonneg fun i hi => ?_) (sum_nonneg fun t ht => ?_)
    · have hi := mem_range.mp hi
      have a := hk.nonneg i (by omega)
      have b := hk.nonneg (q.nb + q.ng + i) (by omega)
      have c := mul_nonneg a (sub_nonneg.mpr (hw.lower i hi (one _)))
      have d := mul_nonneg b (sub_nonneg.mpr (hw.upper i hi (one _)))
      have e := hk.compL i hi
      have f := hk.compU i hi
      linarith [c, d, e, f]
    · have ht := mem_range.mp ht
      have a := hk.nonneg (2 * (q.nb + q.ng) + t) (by omega)
      have c := mul_nonneg a (sub_nonneg.mpr (hw.slack t ht (one _)))
      have e := hk.compS t ht
      linarith [c, e]
  have Q1 := quad_expand q.nv q.H hsym v w
  have Q2 := hpsd fun i => w i - v i
  have Q3 : ∑ t ∈ range (2 * q.ns), (q.Z t * w (q.nv + t) * w (q.nv + t) / 2 + q.gz (q.nv + t) * w (q.nv + t))
      = ∑ t ∈ range (2 * q.ns), (q.Z t * v (q.nv + t) * v (q.nv + t) / 2 + q.gz (q.nv + t) * v (q.nv + t))
        + ∑ t ∈ range (2 * q.ns), q.Z t * (w (q.nv + t) - v (q.nv + t)) * (w (q.nv + t) - v (q.nv + t)) / 2
        + ∑ t ∈ range (2 * q.ns), (q.Z t * v (q.nv + t) + q.gz (q.nv + t)) * (w (q.nv + t) - v (q.nv + t)) := by
    rw [← sum_add_distrib, ← sum_add_distrib]
    exact sum_congr rfl fun t _ => by ring
  have Q4 : 0 ≤ ∑ t ∈ range (2 * q.ns), q.Z t * (w (q.nv + t) - v (q.nv + t)) * (w (q.nv + t) - v (q.nv + t)) / 2 := by
    refine sum_nonneg fun t ht => div_nonneg ?_ (by norm_num)
    rw [mul_assoc]
    exact mul_nonneg (hZ t (mem_range.mp ht)) (mul_self_nonneg _)
  have Q5 : ∑ i ∈ range q.nv, q.gz i * w i = ∑ i ∈ range q.nv, q.gz i * v i
      + ∑ i ∈ range q.nv, q.gz i * (w i - v i) := by
    rw [← sum_add_distrib]; exact sum_congr rfl fun t _ => by ring
  have Q6 : ∑ j ∈ range q.nv, (∑ k ∈ range q.nv, q.H j k * v k + q.gz j) * (w j - v j)
      = ∑ j ∈ range q.nv, (∑ k ∈ range q.nv, q.H j k * v k) * (w j - v j) + ∑ i ∈ range q.nv, q.gz i * (w i - v i) := by
    rw [← sum_add_distrib]; exact sum_congr rfl fun t _ => by ring
  unfold obj
  rw [Q3, Q5, Q1, E2]
  rw [← E1, Q6] at P
  linarith
end
end Acados.DenseQp
