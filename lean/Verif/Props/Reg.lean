import Verif.Model.Reg
import Verif.Spec.Quad
import Verif.Props.QpScaling
import Mathlib.Analysis.Matrix.Spectrum
/-!
# Properties C32, C33: regularised stage Hessians
-/
namespace Acados.Reg
open Finset
variable {K : Type*} [Field K] [LinearOrder K] [IsStrictOrderedRing K]

/-! ## helper lemmas -/

theorem reconstruct_sym (n : Nat) (V : Nat → Nat → K) (d : Nat → K) (i j : Nat) :
    reconstruct n V d i j = reconstruct n V d j i := by
  unfold reconstruct; rw [max_comm, min_comm]

theorem reconstruct_eq (n : Nat) (V : Nat → Nat → K) (d : Nat → K) (i j : Nat) :
    reconstruct n V d i j = ∑ k ∈ range n, V i k * d k * V j k := by
  unfold reconstruct
  rcases le_total i j with h | h
  · rw [max_eq_right h, min_eq_left h]
    exact sum_congr rfl fun k _ => by ring
  · rw [max_eq_left h, min_eq_right h]

theorem quad_dec (n : Nat) (A V : Nat → Nat → K) (d : Nat → K)
    (h : ∀ i < n, ∀ j < n, A i j = ∑ k ∈ range n, V i k * d k * V j k) (x : Nat → K) :
    quad n A x = ∑ k ∈ range n, d k * (∑ i ∈ range n, V i k * x i) ^ 2 := by
  unfold quad
  have e1 : ∀ i ∈ range n, x i * ∑ j ∈ range n, A i j * x j
      = ∑ k ∈ range n, d k * (V i k * x i) * ∑ j ∈ range n, V j k * x j := by
    intro i hi
    have : ∀ j ∈ range n, A i j * x j = ∑ k ∈ range n, V i k * d k * (V j k * x j) := by
      intro j hj
      rw [h i (mem_range.1 hi) j (mem_range.1 hj), sum_mul]
      exact sum_congr rfl fun k _ => by ring
    rw [sum_congr rfl this, sum_comm, mul_sum]
    refine sum_congr rfl fun k _ => ?_
    rw [← mul_sum]; ring
  rw [sum_congr rfl e1, sum_comm]
  refine sum_congr rfl fun k _ => ?_
  rw [← sum_mul, ← mul_sum, sq, ← mul_assoc]

theorem sqn_dec (n : Nat) (V : Nat → Nat → K)
    (h : ∀ i < n, ∀ j < n, ∑ k ∈ range n, V i k * V j k = if i = j then 1 else 0) (x : Nat → K) :
    sqn n x = ∑ k ∈ range n, (∑ i ∈ range n, V i k * x i) ^ 2 := by
  have := quad_dec n (fun i j => if i = j then 1 else 0) V (fun _ => 1) (fun i hi j hj => by
    rw [← h i hi j hj]; exact sum_congr rfl fun k _ => by ring) x
  simp only [one_mul] at this
  rw [← this]
  unfold quad sqn
  refine sum_congr rfl fun i hi => ?_
  rw [sum_eq_single i]
  · simp [sq]
  · intro j _ hj; simp [hj.symm]
  · intro hi'; exact absurd hi hi'

theorem quad_ge_of_dec (n : Nat) (A V : Nat → Nat → K) (d : Nat → K) (c : K)
    (hr : ∀ i < n, ∀ j < n, ∑ k ∈ range n, V i k * V j k = if i = j then 1 else 0)
    (h : ∀ i < n, ∀ j < n, A i j = ∑ k ∈ range n, V i k * d k * V j k)
    (hd : ∀ k < n, c ≤ d k) : QuadGe n A c := by
  intro x
  rw [quad_dec n A V d h, sqn_dec n V hr, mul_sum]
  exact sum_le_sum fun k hk => mul_le_mul_of_nonneg_right (hd k (mem_range.1 hk)) (sq_nonneg _)

theorem quad_le_of_dec (n : Nat) (A V : Nat → Nat → K) (d : Nat → K) (c : K)
    (hr : ∀ i < n, ∀ j < n, ∑ k ∈ range n, V i k * V j k = if i = j then 1 else 0)
    (h : ∀ i < n, ∀ j < n, A i j = ∑ k ∈ range n, V i k * d k * V j k)
    (hd : ∀ k < n, d k ≤ c) (x : Nat → K) : quad n A x ≤ c * sqn n x := by
  rw [quad_dec n A V d h, sqn_dec n V hr, mul_sum]
  exact sum_le_sum fun k hk => mul_le_mul_of_nonneg_right (hd k (mem_range.1 hk)) (sq_nonneg _)

/-- from the definition of an eigen decomposition: every eigenvalue is a value of the quadratic form
at a unit vector -/
theorem eig_value (n : Nat) (A V : Nat → Nat → K) (d : Nat → K) (h : EigOk n A V d) (k : Nat)
    (hk : k < n) : quad n A (fun i => V i k) = d k ∧ sqn n (fun i => V i k) = 1 := by
  have hc : ∀ l ∈ range n, ∑ i ∈ range n, V i l * V i k = if l = k then 1 else 0 :=
    fun l hl => h.cols l (mem_range.1 hl) k hk
  constructor
  · rw [quad_dec n A V d h.dec]
    rw [sum_congr rfl fun l hl => by rw [hc l hl]]
    rw [sum_eq_single k]
    · simp
    · intro l _ hl; simp [hl]
    · intro hk'; exact absurd (mem_range.2 hk) hk'
  · rw [sqn_dec n V h.rows]
    rw [sum_congr rfl fun l hl => by rw [hc l hl]]
    rw [sum_eq_single k]
    · simp
    · intro l _ hl; simp [hl]
    · intro hk'; exact absurd (mem_range.2 hk) hk'

theorem trtrL_sym (n : Nat) (A : Nat → Nat → K) : SymOn n (trtrL n A) := by
  intro i hi j hj
  unfold trtrL
  rcases lt_trichotomy i j with h | rfl | h
  · rw [if_pos ⟨hi, hj, h⟩, if_neg (by omega)]
  · rfl
  · rw [if_neg (by omega), if_pos ⟨hj, hi, h⟩]

theorem trtrL_eq (n : Nat) (A : Nat → Nat → K) (i j : Nat) (hi : i < n) (hj : j < n) :
    trtrL n A i j = if j ≤ i then A i j else A j i := by
  unfold trtrL
  by_cases h : j ≤ i
  · rw [if_pos h, if_neg (by omega)]
  · rw [if_neg h, if_pos (by omega)]

/-! ## C32 -/

/-- the symmetric matrix that a stored Hessian block denotes: only its lower triangle counts -/
def lowerSym (H : Nat → Nat → K) : Nat → Nat → K := fun i j => if j ≤ i then H i j else H j i

/-- the eigenvalue routine is exact on every block of the problem -/
def EigExact (eig : EigFn K) (N : Nat) (n : Nat → Nat) (H : Nat → Nat → Nat → K) : Prop :=
  ∀ ii ≤ N, ∀ A, (∀ i < n ii, ∀ j < n ii, A i j = lowerSym (H ii) i j) →
    EigOk (n ii) (lowerSym (H ii)) (eig (n ii) A).1 (eig (n ii) A).2

theorem block_view (H : Nat → Nat → K) (n : Nat) :
    ∀ i < n, ∀ j < n, (fun i j => trtrL n H j i) i j = lowerSym H i j := by
  intro i hi j hj
  simp only
  rw [trtrL_sym n H j hj i hi, trtrL_eq n H i j hi hj]; rfl

/-- eigenvalue maps that keep values above the threshold -/
theorem reg_core (n : Nat) (A V : Nat → Nat → K) (d d' : Nat → K) (h : EigOk n A V d) (eps : K)
    (hge : ∀ k < n, eps ≤ d' k) :
    SymOn n (reconstruct n V d') ∧ QuadGe n (reconstruct n V d') eps ∧
    ((∀ k < n, d' k = d k) → ∀ i < n, ∀ j < n, reconstruct n V d' i j = A i j) := by
  refine ⟨fun i _ j _ => reconstruct_sym n V d' i j,
    quad_ge_of_dec n _ V d' eps h.rows (fun i _ j _ => reconstruct_eq n V d' i j) hge,
    fun hd i hi j hj => ?_⟩
  rw [reconstruct_eq, h.dec i hi j hj]
  exact sum_congr rfl fun k hk => by rw [hd k (mem_range.1 hk)]

theorem mirrorVal_ge (eps x : K) : eps ≤ mirrorVal eps x := by
  unfold mirrorVal
  split
  · exact le_rfl
  · next h =>
    split
    · next h0 =>
      by_contra hc
      exact h ⟨by linarith [not_le.1 hc], by linarith [not_le.1 hc]⟩
    · next h0 =>
      by_contra hc
      exact h ⟨by linarith [not_le.1 hc, not_lt.1 h0], by linarith [not_le.1 hc]⟩

theorem mirrorVal_le (eps x : K) : mirrorVal eps x ≤ max |x| eps := by
  unfold mirrorVal
  split
  · exact le_max_right _ _
  · split
    · exact le_trans (neg_le_abs x) (le_max_left _ _)
    · exact le_trans (le_abs_self x) (le_max_left _ _)

theorem projectVal_ge (eps x : K) : eps ≤ projectVal eps x := by
  unfold projectVal; split
  · exact le_rfl
  · next h => exact not_lt.1 h

theorem projectVal_le (eps x : K) : projectVal eps x ≤ max x eps := by
  unfold projectVal; split
  · exact le_max_right _ _
  · exact le_max_left _ _

theorem mirrorVal_id (eps x : K) (heps : 0 < eps) (h : eps ≤ x) : mirrorVal eps x = x := by
  unfold mirrorVal
  by_cases hx : x ≤ eps
  · rw [if_pos ⟨by linarith, hx⟩]; exact le_antisymm h hx
  · rw [if_neg (by tauto), if_neg (by linarith)]

theorem projectVal_id (eps x : K) (h : eps ≤ x) : projectVal eps x = x := by
  unfold projectVal
  rw [if_neg (not_lt.2 h)]

/-- a block with `v' A v ≥ eps |v|²` has all eigenvalues `≥ eps` -/
theorem eig_ge (n : Nat) (A V : Nat → Nat → K) (d : Nat → K) (h : EigOk n A V d) (eps : K)
    (hA : QuadGe n A eps) : ∀ k < n, eps ≤ d k := by
  intro k hk
  obtain ⟨h1, h2⟩ := eig_value n A V d h k hk
  have := hA fun i => V i k
  rw [h1, h2, mul_one] at this
  exact this

/-- **C32** (fixed epsilon, mirror and project): for every horizon, stage sizes and stored Hessian,
every regularised block is symmetric, is at least `eps·I`, and equals the symmetric block it came
from if that was already at least `eps·I`. -/
theorem C32_fixed_epsilon (eig : EigFn K) (o : Opts K) (heps : 0 < o.epsilon)
    (ha : o.adaptiveEps = false) (N : Nat) (n : Nat → Nat) (H : Nat → Nat → Nat → K)
    (hE : EigExact eig N n H) (ii : Nat) (hii : ii ≤ N) :
    (SymOn (n ii) (regMirror eig o N n H ii) ∧
      QuadGe (n ii) (regMirror eig o N n H ii) o.epsilon ∧
      (QuadGe (n ii) (lowerSym (H ii)) o.epsilon →
        ∀ i < n ii, ∀ j < n ii, regMirror eig o N n H ii i j = lowerSym (H ii) i j)) ∧
    (SymOn (n ii) (regProject eig o N n H ii) ∧
      QuadGe (n ii) (regProject eig o N n H ii) o.epsilon ∧
      (QuadGe (n ii) (lowerSym (H ii)) o.epsilon →
        ∀ i < n ii, ∀ j < n ii, regProject eig o N n H ii i j = lowerSym (H ii) i j)) := by
  have hok := hE ii hii _ (block_view (H ii) (n ii))
  have hpack : ∀ (R : Nat → Nat → K) (P : (Nat → Nat → K) → Prop), (∀ i j, R i j = R j i) →
      (∀ B, (∀ i < n ii, ∀ j < n ii, B i j = R i j) → P R → P B) →
      P R → P (pack (n ii) R (trtrL (n ii) (H ii))) := by
    intro R P hs hP hR
    refine hP _ (fun i hi j hj => ?_) hR
    unfold pack
    rw [if_pos ⟨hi, hj⟩, hs]
  have hcong : ∀ (R B : Nat → Nat → K), (∀ i < n ii, ∀ j < n ii, B i j = R i j) →
      (SymOn (n ii) R ∧ QuadGe (n ii) R o.epsilon ∧ (QuadGe (n ii) (lowerSym (H ii)) o.epsilon →
        ∀ i < n ii, ∀ j < n ii, R i j = lowerSym (H ii) i j)) →
      (SymOn (n ii) B ∧ QuadGe (n ii) B o.epsilon ∧ (QuadGe (n ii) (lowerSym (H ii)) o.epsilon →
        ∀ i < n ii, ∀ j < n ii, B i j = lowerSym (H ii) i j)) := by
    intro R B hB ⟨h1, h2, h3⟩
    refine ⟨fun i hi j hj => by rw [hB i hi j hj, hB j hj i hi]; exact h1 i hi j hj, fun x => ?_,
      fun hq i hi j hj => by rw [hB i hi j hj]; exact h3 hq i hi j hj⟩
    refine le_trans (h2 x) (le_of_eq ?_)
    unfold quad
    refine sum_congr rfl fun i hi => ?_
    congr 1
    exact sum_congr rfl fun j hj => by rw [hB i (mem_range.1 hi) j (mem_range.1 hj)]
  constructor
  · simp only [regMirror, if_pos hii, ha, Bool.false_eq_true, if_false]
    refine hpack _ (fun B => SymOn (n ii) B ∧ QuadGe (n ii) B o.epsilon ∧
      (QuadGe (n ii) (lowerSym (H ii)) o.epsilon →
        ∀ i < n ii, ∀ j < n ii, B i j = lowerSym (H ii) i j))
      (fun i j => reconstruct_sym _ _ _ i j) (fun B => hcong _ B) ?_
    obtain ⟨h1, h2, h3⟩ := reg_core (n ii) _ _ _
      (fun k => mirrorVal o.epsilon ((eig (n ii) (fun i j => trtrL (n ii) (H ii) j i)).2 k)) hok
      o.epsilon (fun k _ => mirrorVal_ge _ _)
    exact ⟨h1, h2, fun hq => h3 fun k hk => mirrorVal_id _ _ heps (eig_ge _ _ _ _ hok _ hq k hk)⟩
  · simp only [regProject, if_pos hii, ha, Bool.false_eq_true, if_false]
    refine hpack _ (fun B => SymOn (n ii) B ∧ QuadGe (n ii) B o.epsilon ∧
      (QuadGe (n ii) (lowerSym (H ii)) o.epsilon →
        ∀ i < n ii, ∀ j < n ii, B i j = lowerSym (H ii) i j))
      (fun i j => reconstruct_sym _ _ _ i j) (fun B => hcong _ B) ?_
    obtain ⟨h1, h2, h3⟩ := reg_core (n ii) _ _ _
      (fun k => projectVal o.epsilon ((eig (n ii) (fun i j => trtrL (n ii) (H ii) j i)).2 k)) hok
      o.epsilon (fun k _ => projectVal_ge _ _)
    exact ⟨h1, h2, fun hq => h3 fun k hk => projectVal_id _ _ (eig_ge _ _ _ _ hok _ hq k hk)⟩

theorem foldl_cmax (l : List Nat) (g : Nat → K) (m : K) :
    m ≤ l.foldl (fun m k => cmax m (g k)) m ∧
    (∀ k ∈ l, g k ≤ l.foldl (fun m k => cmax m (g k)) m) := by
  induction l generalizing m with
  | nil => simp
  | cons a t ih =>
    rw [List.foldl_cons]
    obtain ⟨h1, h2⟩ := ih (cmax m (g a))
    rw [cmax_eq_max] at *
    refine ⟨le_trans (le_max_left _ _) h1, fun k hk => ?_⟩
    rcases List.mem_cons.1 hk with rfl | hk
    · exact le_trans (le_max_right _ _) h1
    · exact h2 k hk

/-- condition number bound in terms of quadratic forms: the largest value of `R` on unit vectors is
at most `c` times the smallest -/
def CondLe (n : Nat) (R : Nat → Nat → K) (c : K) : Prop :=
  ∀ x y, quad n R x * sqn n y ≤ c * (quad n R y * sqn n x)

theorem sqn_nonneg (n : Nat) (x : Nat → K) : 0 ≤ sqn n x := sum_nonneg fun _ _ => sq_nonneg _

theorem condLe_of (n : Nat) (R : Nat → Nat → K) (c lo hi : K) (hc : 0 < c) (hlo : QuadGe n R lo)
    (hhi : ∀ x, quad n R x ≤ hi * sqn n x) (h : hi ≤ c * lo) : CondLe n R c := by
  intro x y
  have h1 := mul_le_mul_of_nonneg_right (hhi x) (sqn_nonneg n y)
  have h2 := mul_le_mul_of_nonneg_left (mul_le_mul_of_nonneg_right (hlo y) (sqn_nonneg n x)) hc.le
  have h3 : hi * (sqn n x * sqn n y) ≤ c * lo * (sqn n x * sqn n y) :=
    mul_le_mul_of_nonneg_right h (mul_nonneg (sqn_nonneg n x) (sqn_nonneg n y))
  linarith

/-- **C32** (adaptive epsilon): every regularised block is symmetric, at least `min_epsilon·I`, and
its condition number is at most the configured maximum. -/
theorem C32_adaptive (eig : EigFn K) (o : Opts K) (hmin : 0 < o.minEpsilon)
    (hcond : 1 ≤ o.maxCond) (ha : o.adaptiveEps = true) (N : Nat) (n : Nat → Nat)
    (H : Nat → Nat → Nat → K) (hE : EigExact eig N n H) (ii : Nat) (hii : ii ≤ N) :
    (SymOn (n ii) (regMirror eig o N n H ii) ∧
      QuadGe (n ii) (regMirror eig o N n H ii) o.minEpsilon ∧
      CondLe (n ii) (regMirror eig o N n H ii) o.maxCond) ∧
    (SymOn (n ii) (regProject eig o N n H ii) ∧
      QuadGe (n ii) (regProject eig o N n H ii) o.minEpsilon ∧
      CondLe (n ii) (regProject eig o N n H ii) o.maxCond) := by
  have hok := hE ii hii _ (block_view (H ii) (n ii))
  have hc0 : 0 < o.maxCond := by linarith
  have key : ∀ (d' : Nat → K) (eps : K), o.minEpsilon ≤ eps → (∀ k < n ii, eps ≤ d' k) →
      (∀ k < n ii, d' k ≤ o.maxCond * eps) →
      SymOn (n ii) (pack (n ii) (reconstruct (n ii)
        (eig (n ii) (fun i j => trtrL (n ii) (H ii) j i)).1 d') (trtrL (n ii) (H ii))) ∧
      QuadGe (n ii) (pack (n ii) (reconstruct (n ii)
        (eig (n ii) (fun i j => trtrL (n ii) (H ii) j i)).1 d') (trtrL (n ii) (H ii))) o.minEpsilon ∧
      CondLe (n ii) (pack (n ii) (reconstruct (n ii)
        (eig (n ii) (fun i j => trtrL (n ii) (H ii) j i)).1 d') (trtrL (n ii) (H ii))) o.maxCond := by
    intro d' eps hm hlo hhi
    have hB : ∀ i < n ii, ∀ j < n ii, pack (n ii) (reconstruct (n ii)
        (eig (n ii) (fun i j => trtrL (n ii) (H ii) j i)).1 d') (trtrL (n ii) (H ii)) i j
        = ∑ k ∈ range (n ii), (eig (n ii) (fun i j => trtrL (n ii) (H ii) j i)).1 i k * d' k *
          (eig (n ii) (fun i j => trtrL (n ii) (H ii) j i)).1 j k := by
      intro i hi j hj
      unfold pack
      rw [if_pos ⟨hi, hj⟩, reconstruct_sym, reconstruct_eq]
    have h1 := quad_ge_of_dec (n ii) _ _ d' eps hok.rows hB hlo
    have h2 := quad_le_of_dec (n ii) _ _ d' (o.maxCond * eps) hok.rows hB hhi
    refine ⟨fun i hi j hj => ?_, fun x => ?_, condLe_of _ _ _ _ _ hc0 h1 h2 le_rfl⟩
    · rw [hB i hi j hj, hB j hj i hi]
      exact sum_congr rfl fun k _ => by ring
    · exact le_trans (mul_le_mul_of_nonneg_right hm (sqn_nonneg _ _)) (h1 x)
  constructor
  · simp only [regMirror, if_pos hii, ha, if_true, mirrorAdaptive]
    generalize hD : (eig (n ii) (fun i j => trtrL (n ii) (H ii) j i)).2 = D
    obtain ⟨hm0, hm⟩ := foldl_cmax (List.range (n ii)) (fun k => |D k|) 0
    refine key _ (cmax ((List.range (n ii)).foldl (fun m k => cmax m |D k|) 0 / o.maxCond)
      o.minEpsilon) ?_ (fun k _ => mirrorVal_ge _ _) (fun k hk => ?_)
    · rw [cmax_eq_max]; exact le_max_right _ _
    · refine le_trans (mirrorVal_le _ _) ?_
      have hk' := hm k (List.mem_range.2 hk)
      generalize (List.range (n ii)).foldl (fun m k => cmax m |D k|) 0 = M at *
      rw [cmax_eq_max]
      have e1 : M / o.maxCond ≤ max (M / o.maxCond) o.minEpsilon := le_max_left _ _
      have e2 : 0 ≤ max (M / o.maxCond) o.minEpsilon := le_trans hmin.le (le_max_right _ _)
      rw [div_le_iff₀ hc0] at e1
      refine max_le (by linarith) ?_
      nlinarith
  · simp only [regProject, if_pos hii, ha, if_true, projectAdaptive]
    generalize hD : (eig (n ii) (fun i j => trtrL (n ii) (H ii) j i)).2 = D
    obtain ⟨hm0, hm⟩ := foldl_cmax (List.range (n ii)) (fun k => D k) 0
    refine key _ (cmax ((List.range (n ii)).foldl (fun m k => cmax m (D k)) 0 / o.maxCond)
      o.minEpsilon) ?_ (fun k _ => projectVal_ge _ _) (fun k hk => ?_)
    · rw [cmax_eq_max]; exact le_max_right _ _
    · refine le_trans (projectVal_le _ _) ?_
      have hk' := hm k (List.mem_range.2 hk)
      generalize (List.range (n ii)).foldl (fun m k => cmax m (D k)) 0 = M at *
      rw [cmax_eq_max]
      have e1 : M / o.maxCond ≤ max (M / o.maxCond) o.minEpsilon := le_max_left _ _
      have e2 : 0 ≤ max (M / o.maxCond) o.minEpsilon := le_trans hmin.le (le_max_right _ _)
      rw [div_le_iff₀ hc0] at e1
      refine max_le (by linarith) ?_
      nlinarith

/-- **C32** (directions): mirroring keeps the eigenvectors and replaces every eigenvalue outside
`[-eps, eps]` by its absolute value; projecting replaces every eigenvalue below `eps` by `eps`. -/
theorem C32_eigenvectors (eig : EigFn K) (o : Opts K) (ha : o.adaptiveEps = false) (N : Nat)
    (n : Nat → Nat) (H : Nat → Nat → Nat → K) (hE : EigExact eig N n H) (ii : Nat) (hii : ii ≤ N) :
    ∃ V d, EigOk (n ii) (lowerSym (H ii)) V d ∧
      EigOk (n ii) (regMirror eig o N n H ii) V
        (fun k => if |d k| ≤ o.epsilon then o.epsilon else |d k|) ∧
      EigOk (n ii) (regProject eig o N n H ii) V (fun k => max (d k) o.epsilon) := by
  have hok := hE ii hii _ (block_view (H ii) (n ii))
  refine ⟨_, _, hok, ⟨hok.rows, hok.cols, fun i hi j hj => ?_⟩, ⟨hok.rows, hok.cols, fun i hi j hj => ?_⟩⟩
  · simp only [regMirror, if_pos hii, ha, Bool.false_eq_true, if_false, pack, if_pos (And.intro hi hj),
      mirror]
    rw [reconstruct_sym, reconstruct_eq]
    refine sum_congr rfl fun k _ => ?_
    congr 2
    unfold mirrorVal
    simp only [abs_le]
    split
    · rfl
    · split
      · next h => rw [abs_of_neg h]
      · next h => rw [abs_of_nonneg (not_lt.1 h)]
  · simp only [regProject, if_pos hii, ha, Bool.false_eq_true, if_false, pack,
      if_pos (And.intro hi hj), project]
    rw [reconstruct_sym, reconstruct_eq]
    refine sum_congr rfl fun k _ => ?_
    congr 2
    unfold projectVal
    split
    · next h => rw [max_eq_right h.le]
    · next h => rw [max_eq_left (not_lt.1 h)]

/-! ## C33 -/

theorem gershMin_le (n : Nat) (A : Nat → Nat → K) : ∀ i < n,
    gershMin n A ≤ A i i - ∑ j ∈ range n, (if j ≠ i then |A i j| else 0) := by
  have : ∀ (l : List Nat) (g : Nat → K) (m : K), l.foldl (fun m i => cmin m (g i)) m ≤ m ∧
      ∀ i ∈ l, l.foldl (fun m i => cmin m (g i)) m ≤ g i := by
    intro l g
    induction l with
    | nil => intro m; simp
    | cons a t ih =>
      intro m
      rw [List.foldl_cons]
      obtain ⟨h1, h2⟩ := ih (cmin m (g a))
      rw [cmin_eq_min] at *
      refine ⟨h1.trans (min_le_left _ _), fun i hi => ?_⟩
      rcases List.mem_cons.1 hi with rfl | hi
      · exact h1.trans (min_le_right _ _)
      · exact h2 i hi
  intro i hi
  exact (this (List.range n) _ infty).2 i (List.mem_range.2 hi)

/-- the Gershgorin estimate is a lower bound of the quadratic form of a symmetric matrix -/
theorem gershMin_quad (n : Nat) (A : Nat → Nat → K) (hA : SymOn n A) : QuadGe n A (gershMin n A) := by
  intro x
  have e1 : ∀ i ∈ range n, x i * ∑ j ∈ range n, A i j * x j
      = A i i * x i ^ 2 + ∑ j ∈ range n, (if j ≠ i then A i j * (x i * x j) else 0) := by
    intro i hi
    have hsplit : ∑ j ∈ range n, A i j * x j
        = A i i * x i + ∑ j ∈ range n, (if j ≠ i then A i j * x j else 0) := by
      rw [← sum_erase_add (range n) _ hi, add_comm]
      congr 1
      rw [← sum_filter]
      refine sum_congr ?_ fun _ _ => rfl
      ext c; simp [and_comm]
    rw [hsplit, mul_add, mul_sum]
    congr 1
    · ring
    · refine sum_congr rfl fun j _ => ?_
      split
      · ring
      · simp
  have e2 : ∀ i ∈ range n, ∀ j ∈ range n, -(if j ≠ i then |A i j| * ((x i ^ 2 + x j ^ 2) / 2) else 0)
      ≤ (if j ≠ i then A i j * (x i * x j) else 0) := by
    intro i _ j _
    split
    · have h1 : |x i * x j| ≤ (x i ^ 2 + x j ^ 2) / 2 := by
        rw [abs_mul]
        nlinarith [sq_nonneg (|x i| - |x j|), sq_abs (x i), sq_abs (x j)]
      have h2 : -(|A i j| * |x i * x j|) ≤ A i j * (x i * x j) := by
        rw [← abs_mul]; exact neg_abs_le _
      have h3 := mul_le_mul_of_nonneg_left h1 (abs_nonneg (A i j))
      linarith
    · simp
  have e3 : ∑ i ∈ range n, ∑ j ∈ range n, (if j ≠ i then |A i j| * ((x i ^ 2 + x j ^ 2) / 2) else 0)
      = ∑ i ∈ range n, x i ^ 2 * ∑ j ∈ range n, (if j ≠ i then |A i j| else 0) := by
    have s1 : ∑ i ∈ range n, ∑ j ∈ range n, (if j ≠ i then |A i j| * ((x i ^ 2 + x j ^ 2) / 2) else 0)
        = ∑ i ∈ range n, ∑ j ∈ range n, (if j ≠ i then |A i j| * (x i ^ 2 / 2) else 0)
          + ∑ i ∈ range n, ∑ j ∈ range n, (if j ≠ i then |A i j| * (x j ^ 2 / 2) else 0) := by
      rw [← sum_add_distrib]
      refine sum_congr rfl fun i _ => ?_
      rw [← sum_add_distrib]
      refine sum_congr rfl fun j _ => ?_
      split
      · ring
      · simp
    have s2 : ∑ i ∈ range n, ∑ j ∈ range n, (if j ≠ i then |A i j| * (x j ^ 2 / 2) else 0)
        = ∑ i ∈ range n, ∑ j ∈ range n, (if j ≠ i then |A i j| * (x i ^ 2 / 2) else 0) := by
      rw [sum_comm]
      refine sum_congr rfl fun i hi => sum_congr rfl fun j hj => ?_
      rw [hA j (mem_range.1 hj) i (mem_range.1 hi)]
      by_cases h : j = i
      · simp [h]
      · simp [h, Ne.symm h]
    rw [s1, s2, ← sum_add_distrib]
    refine sum_congr rfl fun i _ => ?_
    rw [← sum_add_distrib, mul_sum]
    refine sum_congr rfl fun j _ => ?_
    split
    · ring
    · simp
  unfold quad sqn
  rw [sum_congr rfl e1, sum_add_distrib, mul_sum]
  have e4 : -∑ i ∈ range n, x i ^ 2 * ∑ j ∈ range n, (if j ≠ i then |A i j| else 0)
      ≤ ∑ i ∈ range n, ∑ j ∈ range n, (if j ≠ i then A i j * (x i * x j) else 0) := by
    rw [← e3, ← sum_neg_distrib]
    refine sum_le_sum fun i hi => ?_
    rw [← sum_neg_distrib]
    exact sum_le_sum fun j hj => e2 i hi j hj
  have e5 : ∑ i ∈ range n, gershMin n A * x i ^ 2 ≤ ∑ i ∈ range n, A i i * x i ^ 2
      - ∑ i ∈ range n, x i ^ 2 * ∑ j ∈ range n, (if j ≠ i then |A i j| else 0) := by
    rw [← sum_sub_distrib]
    refine sum_le_sum fun i hi => ?_
    have := mul_le_mul_of_nonneg_right (gershMin_le n A i (mem_range.1 hi)) (sq_nonneg (x i))
    linarith
  linarith

/-- **C33**: after Gershgorin–Levenberg–Marquardt regularisation every stage Hessian is symmetric and
at least `eps·I`; off-diagonal entries are those of the symmetric block it came from; every diagonal
entry grows by the same amount; a block whose Gershgorin discs are all to the right of `eps` is not
changed. -/
theorem C33_glm (eps : K) (heps : 0 < eps) (N : Nat) (n : Nat → Nat) (H : Nat → Nat → Nat → K)
    (ii : Nat) (hii : ii ≤ N) :
    SymOn (n ii) (regGlm eps N n H ii) ∧ QuadGe (n ii) (regGlm eps N n H ii) eps ∧
    (∃ a, 0 ≤ a ∧ ∀ i < n ii, regGlm eps N n H ii i i = H ii i i + a) ∧
    (∀ i < n ii, ∀ j < n ii, i ≠ j → regGlm eps N n H ii i j = lowerSym (H ii) i j) ∧
    ((∀ i < n ii, eps ≤ H ii i i -
        ∑ j ∈ range (n ii), (if j ≠ i then |lowerSym (H ii) i j| else 0)) → eps ≤ infty →
      ∀ i < n ii, ∀ j < n ii, regGlm eps N n H ii i j = lowerSym (H ii) i j) := by
  have hS := trtrL_sym (n ii) (H ii)
  have hQ := gershMin_quad (n ii) _ hS
  have hd : ∀ i, trtrL (n ii) (H ii) i i = H ii i i := fun i => by unfold trtrL; rw [if_neg (by omega)]
  have ho : ∀ i < n ii, ∀ j < n ii, trtrL (n ii) (H ii) i j = lowerSym (H ii) i j :=
    fun i hi j hj => by rw [trtrL_eq _ _ _ _ hi hj]; rfl
  have hshift : ∀ a x, quad (n ii) (fun i j => if i < n ii ∧ i = j then
      trtrL (n ii) (H ii) i j + a else trtrL (n ii) (H ii) i j) x
      = quad (n ii) (trtrL (n ii) (H ii)) x + a * sqn (n ii) x := by
    intro a x
    unfold quad sqn
    rw [mul_sum, ← sum_add_distrib]
    refine sum_congr rfl fun i hi => ?_
    have : ∀ j ∈ range (n ii), (if i < n ii ∧ i = j then
      trtrL (n ii) (H ii) i j + a else trtrL (n ii) (H ii) i j) * x j
      = trtrL (n ii) (H ii) i j * x j + (if i = j then a * x j else 0) := by
      intro j _
      by_cases h : i = j
      · rw [if_pos ⟨mem_range.1 hi, h⟩, if_pos h]; ring
      · rw [if_neg (by tauto), if_neg h]; ring
    rw [sum_congr rfl this, sum_add_distrib, sum_ite_eq, if_pos hi]
    ring
  simp only [regGlm, if_pos hii]
  by_cases ht : gershMin (n ii) (trtrL (n ii) (H ii)) < eps
  · simp only [if_pos ht]
    generalize ha : (if gershMin (n ii) (trtrL (n ii) (H ii)) < 0 then
      |gershMin (n ii) (trtrL (n ii) (H ii))| + eps else eps) = a
    have ha0 : 0 ≤ a ∧ eps ≤ gershMin (n ii) (trtrL (n ii) (H ii)) + a := by
      rw [← ha]
      split
      · next h =>
        rw [abs_of_neg h]
        exact ⟨by linarith, by linarith⟩
      · next h => exact ⟨heps.le, by linarith [not_lt.1 h]⟩
    refine ⟨fun i hi j hj => ?_, fun x => ?_, ⟨a, ha0.1, fun i hi => ?_⟩, fun i hi j hj hij => ?_,
      fun hall hinf => ?_⟩
    · by_cases h : i = j
      · subst h; rfl
      · simp only [h, Ne.symm h, and_false, if_false]; exact hS i hi j hj
    · rw [hshift]
      have := mul_le_mul_of_nonneg_right ha0.2 (sqn_nonneg (n ii) x)
      have := hQ x
      linarith
    · simp [hi, hd]
    · simp only [hij, and_false, if_false]; exact ho i hi j hj
    · exfalso
      refine absurd ht (not_lt.2 ?_)
      have : ∀ (l : List Nat) (g : Nat → K) (m : K), eps ≤ m → (∀ i ∈ l, eps ≤ g i) →
          eps ≤ l.foldl (fun m i => cmin m (g i)) m := by
        intro l g
        induction l with
        | nil => intro m hm _; exact hm
        | cons a t ih =>
          intro m hm hl
          rw [List.foldl_cons]
          refine ih _ ?_ fun i hi => hl i (by simp [hi])
          rw [cmin_eq_min]
          exact le_min hm (hl a (by simp))
      refine this _ _ _ hinf fun i hi => ?_
      have hi' := List.mem_range.1 hi
      rw [hd]
      refine le_trans (hall i hi') (le_of_eq ?_)
      congr 1
      refine sum_congr rfl fun j hj => ?_
      rw [ho i hi' j (mem_range.1 hj)]
  · simp only [if_neg ht]
    refine ⟨hS, fun x => ?_, ⟨0, le_rfl, fun i hi => by rw [hd, add_zero]⟩,
      fun i hi j hj _ => ho i hi j hj, fun _ _ => ho⟩
    exact le_trans (mul_le_mul_of_nonneg_right (not_lt.1 ht) (sqn_nonneg _ _)) (hQ x)

/-- non-vacuity for C33: an indefinite block is changed into a positive definite one -/
example : (regGlm (1/10 : ℚ) 0 (fun _ => 2) (fun _ i j => if i = j then 1 else 3) 0 0 0,
    regGlm (1/10 : ℚ) 0 (fun _ => 2) (fun _ i j => if i = j then 1 else 3) 0 0 1) = (31/10, 3) := by
  decide +kernel

/-- over the reals there is a function that returns an exact eigenvalue decomposition of every
symmetric matrix given by its lower triangle (spectral theorem) -/
theorem exact_eig_all : ∃ eig : EigFn ℝ, ∀ n A, EigOk n (lowerSym A) (eig n A).1 (eig n A).2 := by
  have key : ∀ (n : Nat) (A : Nat → Nat → ℝ), SymOn n A → ∃ V d, EigOk n A V d := by
    intro n A hA
    let M : Matrix (Fin n) (Fin n) ℝ := fun i j => A i j
    have hM : M.IsHermitian := by
      ext i j
      simp only [Matrix.conjTranspose_apply, star_trivial, M]
      exact hA j j.2 i i.2
    let U : Matrix (Fin n) (Fin n) ℝ := hM.eigenvectorUnitary
    have hU1 : U * U.transpose = 1 := by
      have := Unitary.coe_mul_star_self hM.eigenvectorUnitary
      simpa [U, Matrix.star_eq_conjTranspose, Matrix.conjTranspose_eq_transpose_of_trivial] using this
    have hU2 : U.transpose * U = 1 := by
      have := Unitary.coe_star_mul_self hM.eigenvectorUnitary
      simpa [U, Matrix.star_eq_conjTranspose, Matrix.conjTranspose_eq_transpose_of_trivial] using this
    have hspec : M = U * Matrix.diagonal hM.eigenvalues * U.transpose := by
      have := hM.spectral_theorem
      rw [Unitary.conjStarAlgAut_apply] at this
      simpa [U, Matrix.star_eq_conjTranspose, Matrix.conjTranspose_eq_transpose_of_trivial,
        Function.comp_def] using this
    refine ⟨fun i j => if h : i < n ∧ j < n then U ⟨i, h.1⟩ ⟨j, h.2⟩ else 0,
      fun k => if h : k < n then hM.eigenvalues ⟨k, h⟩ else 0, ?_, ?_, ?_⟩
    · intro i hi j hj
      have := congrFun (congrFun hU1 ⟨i, hi⟩) ⟨j, hj⟩
      simp only [Matrix.mul_apply, Matrix.transpose_apply, Matrix.one_apply, Fin.mk.injEq] at this
      rw [← this, sum_range]
      refine sum_congr rfl fun k _ => ?_
      simp [hi, hj]
    · intro i hi j hj
      have := congrFun (congrFun hU2 ⟨i, hi⟩) ⟨j, hj⟩
      simp only [Matrix.mul_apply, Matrix.transpose_apply, Matrix.one_apply, Fin.mk.injEq] at this
      rw [← this, sum_range]
      refine sum_congr rfl fun k _ => ?_
      simp [hi, hj]
    · intro i hi j hj
      have := congrFun (congrFun hspec ⟨i, hi⟩) ⟨j, hj⟩
      rw [Matrix.mul_apply] at this
      simp only [Matrix.transpose_apply, Matrix.mul_diagonal, M] at this
      rw [this, sum_range]
      refine sum_congr rfl fun k _ => ?_
      simp [hi, hj]
  classical
  refine ⟨fun n A => if h : ∃ p : (Nat → Nat → ℝ) × (Nat → ℝ), EigOk n (lowerSym A) p.1 p.2
    then h.choose else (A, fun _ => 0), fun n A => ?_⟩
  have hsym : ∀ (B : Nat → Nat → ℝ), SymOn n (lowerSym B) := by
    intro B i _ j _
    unfold lowerSym
    rcases lt_trichotomy i j with h | rfl | h
    · rw [if_neg (by omega), if_pos h.le]
    · rfl
    · rw [if_pos h.le, if_neg (by omega)]
  have h : ∃ p : (Nat → Nat → ℝ) × (Nat → ℝ), EigOk n (lowerSym A) p.1 p.2 := by
    obtain ⟨V, d, h⟩ := key n (lowerSym A) (hsym A)
    exact ⟨(V, d), h⟩
  simp only [dif_pos h]
  exact h.choose_spec

/-- non-vacuity for C32: over the reals an exact eigenvalue routine exists, for all blocks of all
problems at once -/
theorem exact_eig_exists : ∃ eig : EigFn ℝ, ∀ N n H, EigExact eig N n H := by
  obtain ⟨eig, hE⟩ := exact_eig_all
  refine ⟨eig, fun N n H ii _ A hA => ?_⟩
  have := hE (n ii) A
  refine ⟨this.rows, this.cols, fun i hi j hj => ?_⟩
  rw [← this.dec i hi j hj]
  have e : lowerSym A i j = lowerSym (H ii) i j := by
    unfold lowerSym
    split
    · next hji => rw [hA i hi j hj]; unfold lowerSym; rw [if_pos hji]
    · next hji => rw [hA j hj i hi]; unfold lowerSym; rw [if_pos (by omega)]
  exact e.symm

end Acados.Reg
