import Verif.Spec.ParamSens
import Mathlib.Algebra.BigOperators.Ring.Finset
import Mathlib.Algebra.BigOperators.Intervals
import Mathlib.Tactic.Ring
import Mathlib.Tactic.LinearCombination
/-! Helper lemmas for the solution sensitivities. -/
namespace Acados.PSens
open Finset
open Acados.PSens.Spec
variable {K : Type*} [Field K]
set_option linter.unusedSectionVars false

/-- the differentiated conditions only look at entries within the dimensions -/
theorem diff_congr {d : Dims} {L : Lin K} {g b dd g' b' dd' : Nat → Nat → K} {s s' : Sol K}
    (h : Diff d L g b dd s)
    (hg : ∀ i, i ≤ d.N → ∀ r, r < d.nv i → g' i r = g i r)
    (hb : ∀ i, i < d.N → ∀ c, c < d.nx (i + 1) → b' i c = b i c)
    (hd : ∀ i, i ≤ d.N → ∀ q, q < 2 * d.ni i → dd' i q = dd i q ∨ (L.lam i q = 0))
    (hu : ∀ i, i ≤ d.N → ∀ r, r < d.nv i → s'.ux i r = s.ux i r)
    (hp : ∀ i, i < d.N → ∀ c, c < d.nx (i + 1) → s'.pi i c = s.pi i c)
    (hl : ∀ i, i ≤ d.N → ∀ q, q < 2 * d.ni i → s'.lam i q = s.lam i q) :
    Diff d L g' b' dd' s' := by
  have hnv : ∀ i, d.nv i = d.nu i + d.nx i + 2 * d.ns i := fun i => rfl
  refine ⟨?_, ?_, ?_⟩
  · intro i hi r hr
    rw [hg i hi r hr, ← h.stat i hi r hr]
    congr 1
    unfold statLhs
    congr 1
    · congr 1
      · congr 1
        · exact sum_congr rfl fun v hv => by rw [hu i hi v (mem_range.1 hv)]
        · by_cases hc : i < d.N ∧ r < d.nu i + d.nx i
          · rw [if_pos hc, if_pos hc]
            exact sum_congr rfl fun c hc' => by rw [hp i hc.1 c (mem_range.1 hc')]
          · rw [if_neg hc, if_neg hc]
      · by_cases hc : 0 < i ∧ d.nu i ≤ r ∧ r < d.nu i + d.nx i
        · rw [if_pos hc, if_pos hc]
          refine hp (i - 1) (by omega) _ ?_
          rw [show i - 1 + 1 = i by omega]
          omega
        · rw [if_neg hc, if_neg hc]
    · exact sum_congr rfl fun q hq => by rw [hl i hi q (mem_range.1 hq)]
  · intro i hi c hc
    rw [hb i hi c hc, ← h.dyn i hi c hc]
    congr 2
    · exact sum_congr rfl fun r hr => by
        have h0 := mem_range.1 hr
        rw [hu i (by omega) r (by rw [hnv]; omega)]
    · exact hu (i + 1) (by omega) _ (by rw [hnv]; omega)
  · intro i hi q hq
    have h0 := h.comp i hi q hq
    have h1 : (∑ v ∈ range (d.nv i), L.T i q v * s'.ux i v) = ∑ v ∈ range (d.nv i), L.T i q v * s.ux i v :=
      sum_congr rfl fun v hv => by rw [hu i hi v (mem_range.1 hv)]
    rw [h1, hl i hi q hq]
    rcases hd i hi q hq with h2 | h2
    · rw [h2]; exact h0
    · rw [h2] at h0 ⊢
      linear_combination h0

/-- gap of the linearised dynamics -/
def dynRow (d : Dims) (L : Lin K) (s : Sol K) (i c : Nat) : K :=
  (∑ r ∈ range (d.nu i + d.nx i), L.A i c r * s.ux i r) - s.ux (i + 1) (d.nu (i + 1) + c)

/-- derivative of a slack -/
def tRow (d : Dims) (L : Lin K) (s : Sol K) (i q : Nat) : K := ∑ v ∈ range (d.nv i), L.T i q v * s.ux i v

theorem sum_if_lt {n m : Nat} (h : n ≤ m) (f : Nat → K) :
    (∑ r ∈ range m, if r < n then f r else 0) = ∑ r ∈ range n, f r := by
  rw [← sum_filter]
  congr 1
  ext r
  simp only [mem_filter, mem_range]
  omega

theorem sum_if_seg {a n m : Nat} (h : a + n ≤ m) (f : Nat → K) :
    (∑ r ∈ range m, if a ≤ r ∧ r < a + n then f r else 0) = ∑ c ∈ range n, f (a + c) := by
  have h1 := sum_if_lt (n := a + n) h (fun r => if a ≤ r then f r else 0)
  have h2 : (∑ r ∈ range m, if a ≤ r ∧ r < a + n then f r else 0)
      = ∑ r ∈ range m, if r < a + n then (if a ≤ r then f r else 0) else 0 := by
    refine sum_congr rfl fun r _ => ?_
    by_cases h1 : r < a + n <;> by_cases h2 : a ≤ r <;> simp [h1, h2]
  rw [h2, h1, sum_range_add]
  rw [sum_eq_zero (s := range a)]
  · rw [zero_add]
    exact sum_congr rfl fun c _ => by rw [if_pos (by omega)]
  · intro r hr
    rw [if_neg (by have := mem_range.1 hr; omega)]

theorem stage_pair (d : Dims) (L : Lin K) (y s : Sol K) (i : Nat) :
    (∑ r ∈ range (d.nv i), y.ux i r * statLhs d L s i r)
      = (∑ r ∈ range (d.nv i), ∑ v ∈ range (d.nv i), y.ux i r * (L.H i r v * s.ux i v))
        + (if i < d.N then ∑ c ∈ range (d.nx (i + 1)),
            (∑ r ∈ range (d.nu i + d.nx i), L.A i c r * y.ux i r) * s.pi i c else 0)
        - (if 0 < i then ∑ c ∈ range (d.nx i), y.ux i (d.nu i + c) * s.pi (i - 1) c else 0)
        - ∑ q ∈ range (2 * d.ni i), tRow d L y i q * s.lam i q := by
  have hA : (∑ r ∈ range (d.nv i), y.ux i r * (if i < d.N ∧ r < d.nu i + d.nx i then
        ∑ c ∈ range (d.nx (i + 1)), L.A i c r * s.pi i c else 0))
      = (if i < d.N then ∑ c ∈ range (d.nx (i + 1)),
            (∑ r ∈ range (d.nu i + d.nx i), L.A i c r * y.ux i r) * s.pi i c else 0) := by
    by_cases hi : i < d.N
    · rw [if_pos hi]
      have := sum_if_lt (n := d.nu i + d.nx i) (m := d.nv i) (by unfold Dims.nv; omega)
        (fun r => y.ux i r * ∑ c ∈ range (d.nx (i + 1)), L.A i c r * s.pi i c)
      have e : (∑ r ∈ range (d.nv i), y.ux i r * (if i < d.N ∧ r < d.nu i + d.nx i then
        ∑ c ∈ range (d.nx (i + 1)), L.A i c r * s.pi i c else 0))
        = ∑ r ∈ range (d.nv i), if r < d.nu i + d.nx i then
            y.ux i r * ∑ c ∈ range (d.nx (i + 1)), L.A i c r * s.pi i c else 0 :=
        sum_congr rfl fun r _ => by by_cases h : r < d.nu i + d.nx i <;> simp [hi, h]
      rw [e, this]
      simp only [mul_sum, sum_mul]
      rw [sum_comm]
      exact sum_congr rfl fun c _ => sum_congr rfl fun r _ => by ring
    · rw [if_neg hi]
      exact sum_eq_zero fun r _ => by rw [if_neg (fun h => hi h.1), mul_zero]
  have hE : (∑ r ∈ range (d.nv i), y.ux i r * (if 0 < i ∧ d.nu i ≤ r ∧ r < d.nu i + d.nx i then
        s.pi (i - 1) (r - d.nu i) else 0))
      = (if 0 < i then ∑ c ∈ range (d.nx i), y.ux i (d.nu i + c) * s.pi (i - 1) c else 0) := by
    by_cases hi : 0 < i
    · rw [if_pos hi]
      have := sum_if_seg (a := d.nu i) (n := d.nx i) (m := d.nv i) (by unfold Dims.nv; omega)
        (fun r => y.ux i r * s.pi (i - 1) (r - d.nu i))
      simp only [Nat.add_sub_cancel_left] at this
      rw [← this]
      exact sum_congr rfl fun r _ => by
        by_cases h : d.nu i ≤ r ∧ r < d.nu i + d.nx i <;> simp [hi, h]
    · rw [if_neg hi]
      exact sum_eq_zero fun r _ => by rw [if_neg (fun h => hi h.1), mul_zero]
  have hT : (∑ r ∈ range (d.nv i), y.ux i r * ∑ q ∈ range (2 * d.ni i), L.T i q r * s.lam i q)
      = ∑ q ∈ range (2 * d.ni i), tRow d L y i q * s.lam i q := by
    simp only [mul_sum, tRow, sum_mul]
    rw [sum_comm]
    exact sum_congr rfl fun q _ => sum_congr rfl fun r _ => by ring
  rw [← hA, ← hE, ← hT, ← sum_add_distrib, ← sum_sub_distrib, ← sum_sub_distrib]
  refine sum_congr rfl fun r _ => ?_
  unfold statLhs
  rw [← mul_sum]
  ring

theorem total_pair (d : Dims) (L : Lin K) (y s : Sol K) :
    (∑ i ∈ range (d.N + 1), ∑ r ∈ range (d.nv i), y.ux i r * statLhs d L s i r)
      = (∑ i ∈ range (d.N + 1), ∑ r ∈ range (d.nv i), ∑ v ∈ range (d.nv i), y.ux i r * (L.H i r v * s.ux i v))
        + (∑ i ∈ range d.N, ∑ c ∈ range (d.nx (i + 1)), dynRow d L y i c * s.pi i c)
        - ∑ i ∈ range (d.N + 1), ∑ q ∈ range (2 * d.ni i), tRow d L y i q * s.lam i q := by
  rw [sum_congr rfl fun i _ => stage_pair d L y s i]
  rw [sum_sub_distrib, sum_sub_distrib, sum_add_distrib]
  congr 1
  have h1 : (∑ i ∈ range (d.N + 1), if i < d.N then ∑ c ∈ range (d.nx (i + 1)),
            (∑ r ∈ range (d.nu i + d.nx i), L.A i c r * y.ux i r) * s.pi i c else 0)
      = ∑ i ∈ range d.N, ∑ c ∈ range (d.nx (i + 1)),
            (∑ r ∈ range (d.nu i + d.nx i), L.A i c r * y.ux i r) * s.pi i c :=
    sum_if_lt (by omega) _
  have h2 : (∑ i ∈ range (d.N + 1), if 0 < i then
        ∑ c ∈ range (d.nx i), y.ux i (d.nu i + c) * s.pi (i - 1) c else 0)
      = ∑ i ∈ range d.N, ∑ c ∈ range (d.nx (i + 1)), y.ux (i + 1) (d.nu (i + 1) + c) * s.pi i c := by
    rw [sum_range_succ']
    simp
  rw [h1, h2, add_sub_assoc, ← sum_sub_distrib]
  congr 1
  refine sum_congr rfl fun i _ => ?_
  rw [← sum_sub_distrib]
  exact sum_congr rfl fun c _ => by unfold dynRow; ring

/-- the adjoint identity -/
theorem pair_identity (d : Dims) (L : Lin K)
    (hH : ∀ i, i ≤ d.N → ∀ r, r < d.nv i → ∀ v, v < d.nv i → L.H i r v = L.H i v r)
    (hlam : ∀ i, i ≤ d.N → ∀ q, q < 2 * d.ni i → L.lam i q ≠ 0)
    {g b dd s : Nat → Nat → K} {v y : Sol K}
    (hv : Diff d L g b dd v) (hy : Diff d L s (fun _ _ => 0) (fun _ _ => 0) y) :
    pair d s v
      = (∑ i ∈ range (d.N + 1), ∑ r ∈ range (d.nv i), y.ux i r * g i r)
        + (∑ i ∈ range d.N, ∑ c ∈ range (d.nx (i + 1)), y.pi i c * b i c)
        + ∑ i ∈ range (d.N + 1), ∑ q ∈ range (2 * d.ni i), y.lam i q * dd i q := by
  have e1 : (∑ i ∈ range (d.N + 1), ∑ r ∈ range (d.nv i), y.ux i r * statLhs d L v i r)
      = - ∑ i ∈ range (d.N + 1), ∑ r ∈ range (d.nv i), y.ux i r * g i r := by
    rw [← sum_neg_distrib]
    refine sum_congr rfl fun i hi => ?_
    rw [← sum_neg_distrib]
    refine sum_congr rfl fun r hr => ?_
    have := hv.stat i (by have := mem_range.1 hi; omega) r (mem_range.1 hr)
    linear_combination y.ux i r * this
  have e2 : (∑ i ∈ range (d.N + 1), ∑ r ∈ range (d.nv i), v.ux i r * statLhs d L y i r) = - pair d s v := by
    unfold pair
    rw [← sum_neg_distrib]
    refine sum_congr rfl fun i hi => ?_
    rw [← sum_neg_distrib]
    refine sum_congr rfl fun r hr => ?_
    have := hy.stat i (by have := mem_range.1 hi; omega) r (mem_range.1 hr)
    linear_combination v.ux i r * this
  rw [total_pair] at e1 e2
  have q : (∑ i ∈ range (d.N + 1), ∑ r ∈ range (d.nv i), ∑ w ∈ range (d.nv i), y.ux i r * (L.H i r w * v.ux i w))
      = ∑ i ∈ range (d.N + 1), ∑ r ∈ range (d.nv i), ∑ w ∈ range (d.nv i), v.ux i r * (L.H i r w * y.ux i w) := by
    refine sum_congr rfl fun i hi => ?_
    rw [sum_comm]
    refine sum_congr rfl fun r hr => sum_congr rfl fun w hw => ?_
    rw [hH i (by have := mem_range.1 hi; omega) w (mem_range.1 hw) r (mem_range.1 hr)]
    ring
  have p1 : (∑ i ∈ range d.N, ∑ c ∈ range (d.nx (i + 1)), dynRow d L y i c * v.pi i c) = 0 := by
    refine sum_eq_zero fun i hi => sum_eq_zero fun c hc => ?_
    have := hy.dyn i (mem_range.1 hi) c (mem_range.1 hc)
    unfold dynRow
    linear_combination v.pi i c * this
  have p2 : (∑ i ∈ range d.N, ∑ c ∈ range (d.nx (i + 1)), dynRow d L v i c * y.pi i c)
      = - ∑ i ∈ range d.N, ∑ c ∈ range (d.nx (i + 1)), y.pi i c * b i c := by
    rw [← sum_neg_distrib]
    refine sum_congr rfl fun i hi => ?_
    rw [← sum_neg_distrib]
    refine sum_congr rfl fun c hc => ?_
    have := hv.dyn i (mem_range.1 hi) c (mem_range.1 hc)
    unfold dynRow
    linear_combination y.pi i c * this
  have l : (∑ i ∈ range (d.N + 1), ∑ q ∈ range (2 * d.ni i), tRow d L v i q * y.lam i q)
      = (∑ i ∈ range (d.N + 1), ∑ q ∈ range (2 * d.ni i), tRow d L y i q * v.lam i q)
        + ∑ i ∈ range (d.N + 1), ∑ q ∈ range (2 * d.ni i), y.lam i q * dd i q := by
    rw [← sum_add_distrib]
    refine sum_congr rfl fun i hi => ?_
    rw [← sum_add_distrib]
    refine sum_congr rfl fun q hq => ?_
    have hi' : i ≤ d.N := by have := mem_range.1 hi; omega
    have h1 := hv.comp i hi' q (mem_range.1 hq)
    have h2 := hy.comp i hi' q (mem_range.1 hq)
    refine mul_left_cancel₀ (hlam i hi' q (mem_range.1 hq)) ?_
    unfold tRow
    linear_combination y.lam i q * h1 - v.lam i q * h2
  linear_combination e2 - e1 + q + p1 - p2 + l

theorem adjLoop_eq (d : Dims) (P : Prob K) (μ : Mult K) (y : Sol K) (is : List Nat) (acc : Nat → K)
    (h : ∀ i ∈ is, P.ext i = true) :
    adjLoop d P μ y is acc = some fun k => acc k + (is.map fun i =>
      adjCost d P y i k + (if i < d.N then adjDyn d P μ y i k else 0) + adjCon d P μ y i k).sum := by
  induction is generalizing acc with
  | nil => simp [adjLoop]
  | cons i is ih =>
    rw [adjLoop, if_pos (h i (List.mem_cons_self ..))]
    simp only
    rw [ih _ (fun j hj => h j (List.mem_cons_of_mem _ hj))]
    congr 1
    funext k
    rw [List.map_cons, List.sum_cons]
    by_cases hi : i < d.N
    · simp only [if_pos hi]; ring
    · simp only [if_neg hi]; ring

theorem adjLoop_none (d : Dims) (P : Prob K) (μ : Mult K) (y : Sol K) (is : List Nat) (acc : Nat → K)
    (h : ∃ i ∈ is, P.ext i = false) : adjLoop d P μ y is acc = none := by
  induction is generalizing acc with
  | nil => obtain ⟨i, hi, _⟩ := h; exact absurd hi (List.not_mem_nil)
  | cons i is ih =>
    rw [adjLoop]
    by_cases hi : P.ext i = true
    · rw [if_pos hi]
      refine ih _ ?_
      obtain ⟨j, hj, hjf⟩ := h
      rcases List.mem_cons.1 hj with rfl | hj
      · rw [hjf] at hi; exact absurd hi (by decide)
      · exact ⟨j, hj, hjf⟩
    · rw [if_neg hi]

theorem lamH_eq (d : Dims) (μ : Mult K) (i j : Nat) : lamH d μ.lam i j = lamDiff d μ i j := by
  unfold lamH lamDiff
  rw [show d.nb i + d.ng i + d.nh i + (d.nb i + d.ng i + j) = 2 * d.nb i + 2 * d.ng i + d.nh i + j by omega]
  ring

theorem sum_list_range (n : Nat) (f : Nat → K) : ((List.range n).map f).sum = ∑ i ∈ range n, f i := by
  induction n with
  | zero => rfl
  | succ n ih => rw [List.range_succ, List.map_append, List.sum_append, ih, sum_range_succ]; simp

/-- pairing a multiplier vector with the derivative of `d` -/
theorem pair_dP (d : Dims) (P : Prob K) (lam : Nat → K) (k i : Nat) :
    (∑ q ∈ range (2 * d.ni i), lam q * dP d P k i q)
      = ∑ j ∈ range (d.nh i), P.hp i j k *
          (lam ((d.nb i + d.ng i + d.nh i) + (d.nb i + d.ng i + j)) - lam (d.nb i + d.ng i + j)) := by
  have h1 := sum_if_seg (a := d.nb i + d.ng i) (n := d.nh i) (m := 2 * d.ni i) (by unfold Dims.ni; omega)
    (fun q => lam q * (- P.hp i (q - (d.nb i + d.ng i)) k))
  have h2 := sum_if_seg (a := d.nb i + d.ng i + d.nh i + (d.nb i + d.ng i)) (n := d.nh i) (m := 2 * d.ni i)
    (by unfold Dims.ni; omega)
    (fun q => lam q * (P.hp i (q - (d.nb i + d.ng i + d.nh i + (d.nb i + d.ng i))) k))
  have e : (∑ q ∈ range (2 * d.ni i), lam q * dP d P k i q)
      = (∑ q ∈ range (2 * d.ni i), if d.nb i + d.ng i ≤ q ∧ q < d.nb i + d.ng i + d.nh i then
          lam q * (- P.hp i (q - (d.nb i + d.ng i)) k) else 0)
        + ∑ q ∈ range (2 * d.ni i), if d.nb i + d.ng i + d.nh i + (d.nb i + d.ng i) ≤ q ∧
            q < d.nb i + d.ng i + d.nh i + (d.nb i + d.ng i) + d.nh i then
          lam q * (P.hp i (q - (d.nb i + d.ng i + d.nh i + (d.nb i + d.ng i))) k) else 0 := by
    rw [← sum_add_distrib]
    refine sum_congr rfl fun q _ => ?_
    unfold dP
    simp only
    by_cases c1 : d.nb i + d.ng i ≤ q ∧ q < d.nb i + d.ng i + d.nh i
    · rw [if_pos c1, if_pos c1, if_neg (by omega), add_zero]
    · rw [if_neg c1, if_neg c1, zero_add]
      by_cases c2 : d.nb i + d.ng i + d.nh i + (d.nb i + d.ng i) ≤ q ∧
          q < d.nb i + d.ng i + d.nh i + (d.nb i + d.ng i) + d.nh i
      · rw [if_pos c2, if_pos (by omega)]
      · rw [if_neg c2, if_neg (by omega), mul_zero]
  rw [e, h1, h2, ← sum_add_distrib]
  refine sum_congr rfl fun j _ => ?_
  rw [Nat.add_sub_cancel_left, Nat.add_sub_cancel_left,
    show d.nb i + d.ng i + d.nh i + (d.nb i + d.ng i) + j = d.nb i + d.ng i + d.nh i + (d.nb i + d.ng i + j) by omega]
  ring

/-- what the forward pass writes into the stationarity seed: the constraint part has the opposite sign -/
theorem seedP_g (d : Dims) (P : Prob K) (μ : Mult K) (m0 m : Jac K)
    (h : jacCompute d true P μ m0 = some m) {k : Nat} (hk : k < d.np) {i : Nat} (hi : i ≤ d.N) {r : Nat}
    (hr : r < d.nv i) :
    (seedP d m k).g i r
      = gP d P μ k i r - if r < d.nu i + d.nx i then 2 * ∑ j ∈ range (d.nh i), lamDiff d μ i j * P.hxp i j r k
          else 0 := by
  unfold jacCompute at h
  rw [if_pos rfl] at h
  have hm := (Option.some.inj h).symm
  subst hm
  have hcon : conXP d P μ i r k = ∑ j ∈ range (d.nh i), lamDiff d μ i j * P.hxp i j r k :=
    sum_congr rfl fun j _ => by rw [lamH_eq]; ring
  have hdyn : dynXP d P μ i r k = ∑ c ∈ range (d.nx (i + 1)), μ.pi i c * P.fxp i c r k :=
    sum_congr rfl fun c _ => by ring
  have hnv : d.nv i = d.nu i + d.nx i + 2 * d.ns i := rfl
  simp only [seedP]
  rw [if_pos ⟨hi, hr⟩, if_pos hi]
  unfold gP
  rw [← hcon, ← hdyn]
  unfold jacStage wrBlk addBlk
  have hz : d.nh i = 0 → conXP d P μ i r k = 0 := fun h0 => by unfold conXP; rw [h0]; simp
  by_cases c1 : r < d.nu i + d.nx i
  · have c1' : r < d.nx i + d.nu i := by omega
    by_cases c2 : i < d.N <;> by_cases c3 : P.ext i = true <;> by_cases c4 : 0 < d.nh i
    all_goals
      simp [c1, c1', c2, c3, c4, hk, hr]
      try ring
    all_goals
      rw [hz (by omega)]; ring
  · have c1' : ¬ r < d.nx i + d.nu i := by omega
    have c5 : d.nx i + d.nu i ≤ r := by omega
    have c6 : r < d.nx i + d.nu i + 2 * d.ns i := by omega
    by_cases c2 : i < d.N <;> by_cases c3 : P.ext i = true <;> by_cases c4 : 0 < d.nh i
    all_goals simp [c1, c1', c2, c3, c4, c5, c6, hk, hr]

theorem seedP_b (d : Dims) (P : Prob K) (μ : Mult K) (m0 m : Jac K)
    (h : jacCompute d true P μ m0 = some m) {k : Nat} (hk : k < d.np) {i : Nat} (hi : i < d.N) {c : Nat}
    (hc : c < d.nx (i + 1)) : (seedP d m k).b i c = bP P k i c := by
  unfold jacCompute at h
  rw [if_pos rfl] at h
  have hm := (Option.some.inj h).symm
  subst hm
  simp only [seedP]
  rw [if_pos ⟨hi, hc⟩, if_pos (by omega)]
  unfold jacStage wrBlk bP
  by_cases c4 : 0 < d.nh i <;> simp [c4, hi, hc, hk]

theorem seedP_d (d : Dims) (P : Prob K) (μ : Mult K) (m0 m : Jac K)
    (h : jacCompute d true P μ m0 = some m) {k : Nat} (hk : k < d.np) {i : Nat} (hi : i ≤ d.N) (q : Nat) :
    (seedP d m k).d i q = dP d P k i q := by
  unfold jacCompute at h
  rw [if_pos rfl] at h
  have hm := (Option.some.inj h).symm
  subst hm
  have hj : ∀ j, j < d.nh i → (jacStage d P μ i m0).2.2 j k = P.hp i j k := by
    intro j hj
    unfold jacStage wrBlk
    have c4 : 0 < d.nh i := by omega
    simp [c4, hj, hk]
  simp only [seedP, dP]
  rw [if_pos hi]
  simp only [if_pos hi]
  by_cases c1 : d.nb i + d.ng i ≤ q ∧ q < d.nb i + d.ng i + d.nh i
  · rw [if_neg (by omega), if_pos c1, if_pos c1, hj _ (by omega)]
    ring
  · by_cases c2 : 2 * (d.nb i + d.ng i) + d.nh i ≤ q ∧ q < 2 * (d.nb i + d.ng i) + d.nh i + d.nh i
    · rw [if_pos c2, if_neg c1, if_pos (by omega), if_neg c1, if_pos (by omega), hj _ (by omega)]
      rw [show d.nb i + d.ng i + (q - (2 * (d.nb i + d.ng i) + d.nh i)) - (d.nb i + d.ng i)
          = q - (d.nb i + d.ng i + d.nh i + (d.nb i + d.ng i)) by omega]
      ring
    · rw [if_neg c2, if_neg c1, if_neg c1, if_neg (by omega)]

end Acados.PSens
