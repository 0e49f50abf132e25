import Verif.Model.OcpCost
import Verif.Props.Cost
import Mathlib.Algebra.Order.BigOperators.Group.Finset
import Mathlib.Tactic.Ring
import Mathlib.Tactic.Linarith

/-! # Lemmas on the cost of a problem description -/

namespace Acados.OcpCost
open Finset

variable {K : Type}

/-! ## Buffers -/

section
variable [Zero K] [DecidableEq K]

theorem fill_foldl {ι : Type} (f : ι → Nat) (g : ι → K) (l : List ι) (b : Nat → K) (x : Nat) (v : K)
    (hv : ∀ i ∈ l, f i = x → g i = v) (hb : b x = v ∨ (b x = 0 ∧ ∃ i ∈ l, f i = x)) :
    (l.foldl (fun b i => if g i ≠ 0 then Function.update b (f i) (g i) else b) b) x = v := by
  induction l generalizing b with
  | nil =>
    rcases hb with h | ⟨-, i, hi, -⟩
    · exact h
    · cases hi
  | cons i l ih =>
    rw [List.foldl_cons]
    refine ih _ (fun j hj => hv j (List.mem_cons_of_mem _ hj)) ?_
    by_cases hf : f i = x
    · left
      have hg := hv i List.mem_cons_self hf
      by_cases h0 : g i = 0
      · rw [if_neg (not_not.2 h0)]
        rcases hb with h | ⟨h, -⟩
        · exact h
        · rw [h, ← hg, h0]
      · rw [if_pos h0, ← hf, Function.update_self, hg]
    · have hx : (if g i ≠ 0 then Function.update b (f i) (g i) else b) x = b x := by
        split
        · exact Function.update_of_ne (fun h => hf h.symm) _ _
        · rfl
      rw [hx]
      rcases hb with h | ⟨h, j, hj, hfj⟩
      · exact .inl h
      · rcases List.mem_cons.1 hj with rfl | hj
        · exact absurd hfj hf
        · exact .inr ⟨h, j, hj, hfj⟩

theorem vecBuf_ok {n : Nat} {l : List K} (h : n ≤ l.length) :
    ∃ b, vecBuf n l = .ok b ∧ ∀ i < n, b i = l.getD i 0 := by
  refine ⟨_, if_pos h, fun i hi => ?_⟩
  exact fill_foldl id _ _ _ i _ (fun j _ e => by rw [← e]; rfl) (.inr ⟨rfl, i, List.mem_range.2 hi, rfl⟩)

theorem mem_pairs {n m : Nat} {p : Nat × Nat} : p ∈ pairs n m ↔ p.1 < n ∧ p.2 < m := by
  obtain ⟨a, b⟩ := p
  simp only [pairs, List.mem_flatMap, List.mem_range, List.mem_map, Prod.mk.injEq]
  constructor
  · rintro ⟨j, hj, k, hk, rfl, rfl⟩; exact ⟨hj, hk⟩
  · rintro ⟨h1, h2⟩; exact ⟨a, h1, b, h2, rfl, rfl⟩

theorem index_inj {n i j i' j' : Nat} (hi : i < n) (hi' : i' < n) (h : i + n * j = i' + n * j') : i = i' ∧ j = j' := by
  have h1 : (i + n * j) % n = i := by rw [Nat.add_mul_mod_self_left, Nat.mod_eq_of_lt hi]
  have h2 : (i' + n * j') % n = i' := by rw [Nat.add_mul_mod_self_left, Nat.mod_eq_of_lt hi']
  have he : i = i' := by rw [← h1, h, h2]
  subst he
  exact ⟨rfl, Nat.eq_of_mul_eq_mul_left (by omega) (Nat.add_left_cancel h)⟩

theorem matBuf_ok {n m : Nat} {A : Arr K} (h : n = 0 ∨ m = 0 ∨ (n ≤ A.rows ∧ m ≤ A.cols)) :
    ∃ b, matBuf n m A = .ok b ∧ ∀ i < n, ∀ j < m, b (i + n * j) = A.el i j := by
  refine ⟨_, if_pos h, fun i hi j hj => ?_⟩
  refine fill_foldl (fun i : Nat × Nat => i.1 + n * i.2) (fun i => A.el i.1 i.2) _ _ _ _ ?_
    (.inr ⟨rfl, (i, j), mem_pairs.2 ⟨hi, hj⟩, rfl⟩)
  rintro ⟨a, b⟩ hp e
  obtain ⟨h1, -⟩ := mem_pairs.1 hp
  obtain ⟨rfl, rfl⟩ := index_inj h1 hi e
  rfl

end

/-! ## Checks -/

section
variable [Field K] [LinearOrder K]

/-- the cost with the missing check of the columns of `Vz` filled in -/
def fixVz (nz : Nat) (c : Cost K) : Cost K := { c with Vz := { c.Vz with cols := nz } }

theorem stageOk_iff (eig : Arr K → Option K) (nx nu nz : Nat) (ch : Bool) (c : Cost K) (r : Option Nat) :
    stageOk eig nx nu nz ch c = some r ↔
      WellFormed (fun W => weightOk eig W = true) nx nu nz ch (fixVz nz c) ∧ r = if c.kind = .ext then none else some c.ny := by
  rcases c with ⟨kd, W, Vx, Vu, Vz, yref, sym, nyE, nr, npsi, extLen, hess⟩
  cases kd
  · simp only [stageOk, WellFormed, fixVz, Cost.ny]
    cases sym <;> simp only [Bool.false_eq_true, ↓reduceIte, reduceCtorEq, false_and, true_and]
    cases weightOk eig W <;> simp only [Bool.not_false, Bool.not_true, Bool.false_eq_true, ↓reduceIte, reduceCtorEq,
      false_and, true_and]
    by_cases h1 : Vx.rows = W.rows
    case neg => simp [h1]
    by_cases h2 : Vu.rows = W.rows
    case neg => simp [h2]
    by_cases h3 : nz ≠ 0 ∧ Vz.rows ≠ W.rows
    case pos => simp [h1, h2, h3.1, h3.2]
    by_cases h4 : Vx.cols ≠ nx ∧ W.rows ≠ 0
    case pos => simp [h1, h2, h4.1, h4.2]
    by_cases h5 : Vu.cols ≠ nu ∧ W.rows ≠ 0
    case pos => simp [h1, h2, h5.1, h5.2]
    by_cases h6 : yref.length = W.rows
    case neg => simp [h6]
    have e3 : (nz != 0 && Vz.rows != W.rows) = false := by
      rw [Bool.eq_false_iff]; intro h; rw [Bool.and_eq_true, bne_iff_ne, bne_iff_ne] at h; exact h3 h
    have e4 : (Vx.cols != nx && W.rows != 0) = false := by
      rw [Bool.eq_false_iff]; intro h; rw [Bool.and_eq_true, bne_iff_ne, bne_iff_ne] at h; exact h4 h
    have e5 : (Vu.cols != nu && W.rows != 0) = false := by
      rw [Bool.eq_false_iff]; intro h; rw [Bool.and_eq_true, bne_iff_ne, bne_iff_ne] at h; exact h5 h
    have f3 : nz ≠ 0 → Vz.rows = W.rows := fun h => by by_contra g; exact h3 ⟨h, g⟩
    have f4 : W.rows ≠ 0 → Vx.cols = nx := fun h => by by_contra g; exact h4 ⟨g, h⟩
    have f5 : W.rows ≠ 0 → Vu.cols = nu := fun h => by by_contra g; exact h5 ⟨g, h⟩
    rw [e3, e4, e5]
    simp only [h1, h2, h6, bne_self_eq_false, Bool.or_self, Bool.false_eq_true, ↓reduceIte, Option.some.injEq,
      implies_true, and_true, true_and]
    constructor
    · intro h; exact ⟨⟨f4, f5, f3⟩, h.symm⟩
    · intro h; exact h.2.symm
  · simp only [stageOk, WellFormed, fixVz, Cost.ny]
    cases sym <;> simp only [Bool.false_eq_true, ↓reduceIte, reduceCtorEq, false_and, true_and]
    cases weightOk eig W <;> simp only [Bool.not_false, Bool.not_true, Bool.false_eq_true, ↓reduceIte, reduceCtorEq,
      false_and, true_and]
    by_cases h1 : nyE = W.rows
    case neg => simp [h1]
    by_cases h2 : yref.length = W.rows
    case neg => simp [h2]
    subst h1
    simp [h2]
    exact eq_comm
  · simp only [stageOk, WellFormed, fixVz, Cost.ny]
    by_cases h0 : nyE = 0
    · simp [h0]
    by_cases h1 : nr = nyE
    case neg => simp [h1]
    by_cases h2 : npsi = 1
    case neg => simp [h2]
    by_cases h3 : yref.length = nyE
    case neg => simp [h3]
    cases ch
    · simp
    · subst h1
      simp [h0, h2, h3, Nat.pos_of_ne_zero h0]
      exact eq_comm
  · simp only [stageOk, WellFormed, fixVz, Cost.ny]
    cases extLen with
    | none => simp
    | some n =>
      by_cases h1 : n = 1
      case neg => simp [h1]
      cases hess with
      | none => simp [h1, eq_comm]
      | some s =>
        by_cases h2 : s = (nx + nu, nx + nu)
        · simp [h1, h2, eq_comm]
        · simp [h1, h2]

theorem termOk_iff (eig : Arr K → Option K) (nx : Nat) (ch : Bool) (c : Cost K) (r : Option Nat) :
    termOk eig nx ch c = some r ↔
      WellFormedE (fun W => weightOk eig W = true) nx ch c ∧ r = if c.kind = .ext then none else some c.ny := by
  rcases c with ⟨kd, W, Vx, Vu, Vz, yref, sym, nyE, nr, npsi, extLen, hess⟩
  cases kd
  · simp only [termOk, WellFormedE, Cost.ny]
    cases sym <;> simp only [Bool.false_eq_true, ↓reduceIte, reduceCtorEq, false_and, true_and]
    cases weightOk eig W <;> simp only [Bool.not_false, Bool.not_true, Bool.false_eq_true, ↓reduceIte, reduceCtorEq,
      false_and, true_and]
    by_cases h1 : Vx.rows = W.rows
    case neg => simp [h1]
    by_cases h4 : Vx.cols ≠ nx ∧ W.rows ≠ 0
    case pos => simp [h1, h4.1, h4.2]
    by_cases h6 : yref.length = W.rows
    case neg => simp [h6]
    have e4 : (Vx.cols != nx && W.rows != 0) = false := by
      rw [Bool.eq_false_iff]; intro h; rw [Bool.and_eq_true, bne_iff_ne, bne_iff_ne] at h; exact h4 h
    have f4 : W.rows ≠ 0 → Vx.cols = nx := fun h => by by_contra g; exact h4 ⟨g, h⟩
    rw [e4]
    simp only [h1, h6, bne_self_eq_false, Bool.false_eq_true, ↓reduceIte, Option.some.injEq,
      true_and]
    constructor
    · intro h; exact ⟨f4, h.symm⟩
    · intro h; exact h.2.symm
  · simp only [termOk, WellFormedE, Cost.ny]
    cases sym <;> simp only [Bool.false_eq_true, ↓reduceIte, reduceCtorEq, false_and, true_and]
    cases weightOk eig W <;> simp only [Bool.not_false, Bool.not_true, Bool.false_eq_true, ↓reduceIte, reduceCtorEq,
      false_and, true_and]
    by_cases h1 : nyE = W.rows
    case neg => simp [h1]
    by_cases h2 : yref.length = W.rows
    case neg => simp [h2]
    subst h1
    simp [h2]
    exact eq_comm
  · simp only [termOk, WellFormedE, Cost.ny]
    by_cases h0 : nyE = 0
    · simp [h0]
    by_cases h1 : nr = nyE
    case neg => simp [h1]
    by_cases h2 : npsi = 1
    case neg => simp [h2]
    by_cases h3 : yref.length = nyE
    case neg => simp [h3]
    cases ch
    · simp
    · subst h1
      simp [h0, h2, h3, Nat.pos_of_ne_zero h0]
      exact eq_comm
  · simp only [termOk, WellFormedE, Cost.ny]
    cases extLen with
    | none => simp
    | some n =>
      by_cases h1 : n = 1
      case neg => simp [h1]
      cases hess with
      | none => simp [h1, eq_comm]
      | some s =>
        by_cases h2 : s = (nx, nx)
        · simp [h1, h2, eq_comm]
        · simp [h1, h2]

omit [Field K] [LinearOrder K] in
theorem wellFormed_mono {P Q : Arr K → Prop} {nx nu nz : Nat} {ch : Bool} {c : Cost K} (h : P c.W → Q c.W)
    (hw : WellFormed P nx nu nz ch c) : WellFormed Q nx nu nz ch c := by
  rcases c with ⟨kd, W, Vx, Vu, Vz, yref, sym, nyE, nr, npsi, extLen, hess⟩
  cases kd
  · obtain ⟨a, b, r⟩ := hw; exact ⟨a, h b, r⟩
  · obtain ⟨a, b, r⟩ := hw; exact ⟨a, h b, r⟩
  · exact hw
  · exact hw

omit [Field K] [LinearOrder K] in
theorem wellFormedE_mono {P Q : Arr K → Prop} {nx : Nat} {ch : Bool} {c : Cost K} (h : P c.W → Q c.W)
    (hw : WellFormedE P nx ch c) : WellFormedE Q nx ch c := by
  rcases c with ⟨kd, W, Vx, Vu, Vz, yref, sym, nyE, nr, npsi, extLen, hess⟩
  cases kd
  · obtain ⟨a, b, r⟩ := hw; exact ⟨a, h b, r⟩
  · obtain ⟨a, b, r⟩ := hw; exact ⟨a, h b, r⟩
  · exact hw
  · exact hw

omit [Field K] [LinearOrder K] in
theorem wellFormed_fix {P : Arr K → Prop} {nx nu nz : Nat} {ch : Bool} {c : Cost K} (hv : VzFits nz c) :
    WellFormed P nx nu nz ch (fixVz nz c) ↔ WellFormed P nx nu nz ch c := by
  rcases c with ⟨kd, W, Vx, Vu, Vz, yref, sym, nyE, nr, npsi, extLen, hess⟩
  cases kd
  · simp only [WellFormed, fixVz]
    constructor
    · rintro ⟨a, b, c, d, e, f, g, h⟩
      exact ⟨a, b, c, d, e, f, g, fun hz => ⟨(h hz).1, fun hw => hv rfl hw hz⟩⟩
    · rintro ⟨a, b, c, d, e, f, g, h⟩
      exact ⟨a, b, c, d, e, f, g, fun hz => ⟨(h hz).1, fun _ => trivial⟩⟩
  all_goals exact Iff.rfl

omit [LinearOrder K] in
theorem form_symL (n : Nat) (W : Nat → Nat → K) (h : ∀ i < n, ∀ j < n, W i j = W j i) (v : Nat → K) :
    form n (fun i j => if j ≤ i then W i j else W j i) v = form n W v := by
  unfold form
  refine sum_congr rfl fun i hi => sum_congr rfl fun j hj => ?_
  beta_reduce
  split
  · rfl
  · rw [h i (mem_range.1 hi) j (mem_range.1 hj)]

theorem closeT_iff (A : Arr K) :
    closeT A = true ↔ ∀ i < A.rows, ∀ j < A.rows, |A.el i j - A.el j i| ≤ tol + rtol * |A.el j i| := by
  simp only [closeT, List.all_eq_true, List.mem_range, decide_eq_true_eq]

theorem nearDiag_iff (A : Arr K) :
    nearDiag A = true ↔ ∀ i < A.rows, ∀ j < A.rows, |A.el i j - (if i = j then A.el i i else 0)| < tol := by
  simp only [nearDiag, List.all_eq_true, List.mem_range, decide_eq_true_eq]

theorem weightOk_iff (eig : Arr K → Option K) (A : Arr K) :
    weightOk eig A = true ↔ A.rows = A.cols ∧ closeT A = true ∧
      ((nearDiag A = true ∧ ∀ i < A.rows, 0 ≤ A.el i i)
        ∨ (nearDiag A = false ∧ ∃ e, eig A = some e ∧ tol < e)) := by
  unfold weightOk
  rw [Bool.and_eq_true, Bool.and_eq_true, beq_iff_eq, and_assoc]
  refine and_congr_right fun _ => and_congr_right fun _ => ?_
  cases hd : nearDiag A
  · rw [if_neg (by simp)]
    cases eig A with
    | none => simp
    | some e => simp
  · rw [if_pos rfl]
    simp [not_lt]

section
variable [IsStrictOrderedRing K]

theorem tol_pos : (0 : K) < tol := by unfold tol; positivity

omit [IsStrictOrderedRing K] in
theorem sq_abs_expand (n : Nat) (v : Nat → K) :
    (∑ i ∈ range n, |v i|) * ∑ i ∈ range n, |v i| = ∑ i ∈ range n, ∑ j ∈ range n, |v i| * |v j| := by
  rw [sum_mul_sum]

theorem weight_near (eig : Arr K → Option K) (he : EigOk eig) (A : Arr K) (h : weightOk eig A = true) : NearWeight A := by
  obtain ⟨h1, h2, h3⟩ := (weightOk_iff eig A).1 h
  refine ⟨h1, (closeT_iff A).1 h2, fun v => ?_⟩
  rcases h3 with ⟨hd, hp⟩ | ⟨hd, e, hee, hte⟩
  · rw [nearDiag_iff] at hd
    rw [sq_abs_expand, mul_sum, ← sum_neg_distrib]
    unfold form
    refine sum_le_sum fun i hi => ?_
    rw [mul_sum, ← sum_neg_distrib]
    refine sum_le_sum fun j hj => ?_
    rw [mem_range] at hi hj
    change -(tol * (|v i| * |v j|)) ≤ _
    beta_reduce
    have hab : |v i * v j| = |v i| * |v j| := abs_mul _ _
    have hnn : 0 ≤ |v i| * |v j| := by positivity
    have key : ∀ a : K, |a| ≤ tol → -(tol * (|v i| * |v j|)) ≤ a * v i * v j := by
      intro a ha
      have h1 : |a * v i * v j| ≤ tol * (|v i| * |v j|) := by
        rw [mul_assoc, abs_mul, hab]; exact mul_le_mul_of_nonneg_right ha hnn
      exact (abs_le.1 h1).1
    by_cases hij : i = j
    · subst hij
      rw [if_pos le_rfl]
      have : 0 ≤ A.el i i * v i * v i := by
        rw [mul_assoc]; exact mul_nonneg (hp i hi) (mul_self_nonneg _)
      have h0 : 0 ≤ tol * (|v i| * |v i|) := mul_nonneg tol_pos.le hnn
      linarith
    · split
      · have := hd i hi j hj
        rw [if_neg hij, sub_zero] at this
        exact key _ this.le
      · have := hd j hj i hi
        rw [if_neg (fun h => hij h.symm), sub_zero] at this
        exact key _ this.le
  · have hr : 0 < A.rows := by
      rcases Nat.eq_zero_or_pos A.rows with h0 | h0
      · exfalso
        have : nearDiag A = true := (nearDiag_iff A).2 fun i hi => by omega
        rw [hd] at this; cases this
      · exact h0
    have := (he A e h1 hr hee).1 v
    refine le_trans ?_ this
    have hq : 0 ≤ ∑ i ∈ range A.rows, v i * v i := sum_nonneg fun i _ => mul_self_nonneg _
    have hs : 0 ≤ (∑ i ∈ range A.rows, |v i|) * ∑ i ∈ range A.rows, |v i| := mul_self_nonneg _
    have h3 : 0 ≤ e * ∑ i ∈ range A.rows, v i * v i := mul_nonneg (tol_pos.le.trans hte.le) hq
    have h4 : (0 : K) ≤ 1 / 10 ^ 10 := by positivity
    have := mul_nonneg h4 hs
    linarith

omit [LinearOrder K] [IsStrictOrderedRing K] in
theorem form_single (n : Nat) (W : Nat → Nat → K) (i : Nat) (hi : i < n) :
    form n W (fun j => if j = i then 1 else 0) = W i i := by
  unfold form
  rw [sum_eq_single i, sum_eq_single i]
  · simp
  · intro j _ hj; simp [hj]
  · intro h; exact absurd (mem_range.2 hi) h
  · intro j _ hj; simp [hj]
  · intro h; exact absurd (mem_range.2 hi) h

theorem good_weight (eig : Arr K → Option K) (he : EigOk eig) (A : Arr K) (h : GoodWeight A) (hr : eig A ≠ none) :
    weightOk eig A = true := by
  obtain ⟨h1, h2, h3⟩ := h
  have hr5 : (0 : K) ≤ rtol := by unfold rtol; positivity
  refine (weightOk_iff eig A).2 ⟨h1, (closeT_iff A).2 fun i hi j hj => ?_, ?_⟩
  · rw [h2 i hi j hj, sub_self, abs_zero]
    exact add_nonneg tol_pos.le (mul_nonneg hr5 (abs_nonneg _))
  · cases hd : nearDiag A
    · right
      obtain ⟨e, hee⟩ := Option.ne_none_iff_exists'.1 hr
      refine ⟨rfl, e, hee, ?_⟩
      rcases h3 with ⟨hz, -⟩ | ⟨lam, hl, hv⟩
      · exfalso
        have : nearDiag A = true := (nearDiag_iff A).2 fun i hi j hj => by
          by_cases hij : i = j
          · subst hij; simpa using tol_pos
          · rw [if_neg hij, hz i hi j hj hij]; simpa using tol_pos
        rw [hd] at this; cases this
      · have hrow : 0 < A.rows := by
          rcases Nat.eq_zero_or_pos A.rows with h0 | h0
          · exfalso
            have : nearDiag A = true := (nearDiag_iff A).2 fun i hi => by omega
            rw [hd] at this; cases this
          · exact h0
        obtain ⟨-, v, hv0, hve⟩ := he A e h1 hrow hee
        rw [form_symL _ _ h2] at hve
        have := hv v
        rw [hve] at this
        have := le_of_mul_le_mul_right this hv0
        exact lt_of_lt_of_le hl this
    · left
      refine ⟨rfl, fun i hi => ?_⟩
      rcases h3 with ⟨-, hz⟩ | ⟨lam, hl, hv⟩
      · exact hz i hi
      · have := hv (fun j => if j = i then 1 else 0)
        rw [form_single _ _ i hi] at this
        refine le_trans (mul_nonneg ?_ ?_) this
        · exact le_trans (by positivity) hl.le
        · exact sum_nonneg fun j _ => mul_self_nonneg _

end

theorem makeConsistent_some {eig : Arr K → Option K} {D D' : Desc K} (h : makeConsistent eig D = some D') :
    D'.N = D.N ∧ D'.nx = D.nx ∧ D'.nu = D.nu ∧ D'.nz = D.nz ∧ D'.ns0 = D.ns0 ∧ D'.ns = D.ns ∧ D'.nsE = D.nsE
    ∧ D'.pen0 = D.pen0 ∧ D'.pen = D.pen ∧ D'.penE = D.penE ∧ D'.scaling = D.scaling
    ∧ D'.cost = D.cost ∧ D'.costE = D.costE
    ∧ (0 < D.N → D'.cost0 = some (D.cost0.getD D.cost))
    ∧ (0 < D.N → WellFormed (fun W => weightOk eig W = true) D.nx D.nu D.nz D.conlHess (fixVz D.nz (D.cost0.getD D.cost))
        ∧ WellFormed (fun W => weightOk eig W = true) D.nx D.nu D.nz D.conlHess (fixVz D.nz D.cost)
        ∧ D'.ny0 = (if (D.cost0.getD D.cost).kind = .ext then D.ny0 else (D.cost0.getD D.cost).ny)
        ∧ D'.ny = (if D.cost.kind = .ext then D.ny else D.cost.ny))
    ∧ WellFormedE (fun W => weightOk eig W = true) D.nx D.conlHess D.costE
    ∧ D'.nyE = (if D.costE.kind = .ext then D.nyE else D.costE.ny) := by
  have hget : ∀ (c : Cost K) (r : Option Nat) (m : Nat), r = (if c.kind = .ext then none else some c.ny) →
      r.getD m = if c.kind = .ext then m else c.ny := by
    intro c r m hr
    rw [hr]; split <;> rfl
  unfold makeConsistent at h
  split at h
  · next hN =>
    cases ht : termOk eig D.nx D.conlHess D.costE with
    | none => rw [ht] at h; cases h
    | some r =>
      rw [ht] at h
      cases h
      obtain ⟨w, hr⟩ := (termOk_iff _ _ _ _ _).1 ht
      exact ⟨rfl, rfl, rfl, rfl, rfl, rfl, rfl, rfl, rfl, rfl, rfl, rfl, rfl, fun h => by omega, fun h => by omega,
        w, hget _ _ _ hr⟩
  · next hN =>
    cases h0 : stageOk eig D.nx D.nu D.nz D.conlHess (D.cost0.getD D.cost) with
    | none => simp [h0] at h
    | some r0 =>
      cases h1 : stageOk eig D.nx D.nu D.nz D.conlHess D.cost with
      | none => simp [h0, h1] at h
      | some r1 =>
        cases h2 : termOk eig D.nx D.conlHess D.costE with
        | none => simp [h0, h1, h2] at h
        | some r2 =>
          simp only [h0, h1, h2, Option.some.injEq] at h
          subst h
          obtain ⟨w0, e0⟩ := (stageOk_iff _ _ _ _ _ _ _).1 h0
          obtain ⟨w1, e1⟩ := (stageOk_iff _ _ _ _ _ _ _).1 h1
          obtain ⟨w2, e2⟩ := (termOk_iff _ _ _ _ _).1 h2
          exact ⟨rfl, rfl, rfl, rfl, rfl, rfl, rfl, rfl, rfl, rfl, rfl, rfl, rfl, fun _ => rfl,
            fun _ => ⟨w0, w1, hget _ _ _ e0, hget _ _ _ e1⟩, w2, hget _ _ _ e2⟩

theorem makeConsistent_isSome {eig : Arr K → Option K} {D : Desc K}
    (h : 0 < D.N → WellFormed (fun W => weightOk eig W = true) D.nx D.nu D.nz D.conlHess (fixVz D.nz (D.cost0.getD D.cost))
        ∧ WellFormed (fun W => weightOk eig W = true) D.nx D.nu D.nz D.conlHess (fixVz D.nz D.cost))
    (hE : WellFormedE (fun W => weightOk eig W = true) D.nx D.conlHess D.costE) :
    (makeConsistent eig D).isSome = true := by
  unfold makeConsistent
  have h2 := (termOk_iff eig D.nx D.conlHess D.costE _).2 ⟨hE, rfl⟩
  split
  · rw [h2]; rfl
  · next hN =>
    obtain ⟨a, b⟩ := h (Nat.pos_of_ne_zero hN)
    simp only [(stageOk_iff eig D.nx D.nu D.nz D.conlHess _ _).2 ⟨a, rfl⟩, (stageOk_iff eig D.nx D.nu D.nz D.conlHess _ _).2 ⟨b, rfl⟩, h2,
      Option.isSome_some]

end

/-! ## Calls -/

section
variable [Field K] [DecidableEq K]

/-- the data after a list of calls agree with the description, field by field -/
def Agree (D : Desc K) (k : Nat) (a : Cost.LsData K) : Fld → Prop
  | .scaling => a.scaling = D.scaling.getD k 0
  | .yref => ∀ i < (D.at k).ny, a.yref i = (D.at k).yref.getD i 0
  | .W => ∀ i < (D.at k).ny, ∀ j < (D.at k).ny, a.W i j = (D.at k).W.el i j
  | .Vx => ∀ i < (D.at k).ny, ∀ j < D.nx, a.Vx i j = (D.at k).Vx.el i j
  | .Vu => ∀ i < (D.at k).ny, ∀ j < D.nuAt k, a.Vu i j = (D.at k).Vu.el i j
  | .Vz => ∀ i < (D.at k).ny, ∀ j < D.nzAt k, a.Vz i j = (D.at k).Vz.el i j
  | .Zl => ∀ i < D.nsAt k, a.sZ i = (D.penAt k).Zl.getD i 0
  | .Zu => ∀ i < D.nsAt k, a.sZ (D.nsAt k + i) = (D.penAt k).Zu.getD i 0
  | .zl => ∀ i < D.nsAt k, a.sz i = (D.penAt k).zl.getD i 0
  | .zu => ∀ i < D.nsAt k, a.sz (D.nsAt k + i) = (D.penAt k).zu.getD i 0

omit [DecidableEq K] in
theorem agree_same (D : Desc K) (k : Nat) (d : Cost.Dims) (hd : d.ns = D.nsAt k) (a : Cost.LsData K) (f : Fld)
    (b : Nat → K) (h : Means D k (D.at k).ny f b) : Agree D k (a.write d (toLs (D.at k).ny (f, b))) f := by
  cases f
  case Zl => intro i hi; simp only [toLs, Cost.LsData.write, hd, if_pos hi]; exact h i hi
  case zl => intro i hi; simp only [toLs, Cost.LsData.write, hd, if_pos hi]; exact h i hi
  case Zu =>
    intro i hi
    simp only [toLs, Cost.LsData.write, hd, if_neg (show ¬ D.nsAt k + i < D.nsAt k by omega), Nat.add_sub_cancel_left]
    exact h i hi
  case zu =>
    intro i hi
    simp only [toLs, Cost.LsData.write, hd, if_neg (show ¬ D.nsAt k + i < D.nsAt k by omega), Nat.add_sub_cancel_left]
    exact h i hi
  all_goals exact h

omit [DecidableEq K] in
theorem agree_other (D : Desc K) (k : Nat) (d : Cost.Dims) (hd : d.ns = D.nsAt k) (a : Cost.LsData K) (f f' : Fld)
    (hf : f ≠ f') (b : Nat → K) (h : Agree D k a f) : Agree D k (a.write d (toLs (D.at k).ny (f', b))) f := by
  cases f <;> cases f' <;> first
    | exact absurd rfl hf
    | exact h
    | (intro i hi; simp only [toLs, Cost.LsData.write, hd, if_pos hi]; exact h i hi)
    | (intro i hi
       simp only [toLs, Cost.LsData.write, hd, if_neg (show ¬ D.nsAt k + i < D.nsAt k by omega)]
       exact h i hi)

omit [DecidableEq K] in
theorem agree_fold (D : Desc K) (k : Nat) (d : Cost.Dims) (hd : d.ns = D.nsAt k) (l : List (Call K))
    (hl : ∀ c ∈ l, Means D k (D.at k).ny c.1 c.2) (f : Fld) (a : Cost.LsData K) (h : f ∈ l.map Prod.fst ∨ Agree D k a f) :
    Agree D k (l.foldl (fun a c => a.write d (toLs (D.at k).ny c)) a) f := by
  induction l generalizing a with
  | nil => rcases h with h | h; cases h; exact h
  | cons c l ih =>
    rw [List.foldl_cons]
    refine ih (fun c hc => hl c (List.mem_cons_of_mem _ hc)) _ ?_
    by_cases hf : f = c.1
    · right
      subst hf
      exact agree_same D k d hd a c.1 c.2 (hl c List.mem_cons_self)
    · rcases h with h | h
      · rw [List.map_cons, List.mem_cons] at h
        rcases h with h | h
        · exact absurd h hf
        · exact .inl h
      · exact .inr (agree_other D k d hd a f c.1 hf c.2 h)

theorem penCalls_ok (D : Desc K) (k : Nat) (ny : Nat) (hs : D.Sized) :
    ∃ l, penCalls (D.nsAt k) (D.penAt k) = .ok l ∧ (∀ c ∈ l, Means D k ny c.1 c.2)
      ∧ (∀ c ∈ l, c.1 = .Zl ∨ c.1 = .Zu ∨ c.1 = .zl ∨ c.1 = .zu)
      ∧ (0 < D.nsAt k → Fld.Zl ∈ l.map Prod.fst ∧ Fld.Zu ∈ l.map Prod.fst ∧ Fld.zl ∈ l.map Prod.fst ∧ Fld.zu ∈ l.map Prod.fst) := by
  obtain ⟨-, hs⟩ := hs
  obtain ⟨h1, h2, h3, h4⟩ := hs k
  unfold penCalls
  by_cases h0 : D.nsAt k = 0
  · rw [if_pos h0]
    exact ⟨[], rfl, by simp, by simp, by omega⟩
  · rw [if_neg h0]
    obtain ⟨a, ha, ha'⟩ := vecBuf_ok (n := D.nsAt k) h1.ge
    obtain ⟨b, hb, hb'⟩ := vecBuf_ok (n := D.nsAt k) h2.ge
    obtain ⟨c, hc, hc'⟩ := vecBuf_ok (n := D.nsAt k) h3.ge
    obtain ⟨d, hd, hd'⟩ := vecBuf_ok (n := D.nsAt k) h4.ge
    rw [ha, hb, hc, hd]
    refine ⟨_, rfl, ?_, ?_, ?_⟩
    · intro x hx
      simp only [List.mem_cons, List.not_mem_nil, or_false] at hx
      rcases hx with rfl | rfl | rfl | rfl <;> assumption
    · intro x hx
      simp only [List.mem_cons, List.not_mem_nil, or_false] at hx
      rcases hx with rfl | rfl | rfl | rfl <;> simp
    · intro _; simp

theorem costCalls_ok (D : Desc K) (k : Nat) (ny : Nat) (c : Cost K) (hc : c = D.at k)
    (hy : ny ≤ c.yref.length)
    (hw : c.kind = .ls ∨ c.kind = .nls → ny ≤ c.W.rows ∧ ny ≤ c.W.cols)
    (hx : c.kind = .ls → ny = 0 ∨ D.nx = 0 ∨ (ny ≤ c.Vx.rows ∧ D.nx ≤ c.Vx.cols))
    (hu : c.kind = .ls → ny = 0 ∨ D.nuAt k = 0 ∨ (ny ≤ c.Vu.rows ∧ D.nuAt k ≤ c.Vu.cols))
    (hz : c.kind = .ls → ny = 0 ∨ D.nzAt k = 0 ∨ (ny ≤ c.Vz.rows ∧ D.nzAt k ≤ c.Vz.cols)) :
    ∃ l, costCalls ny D.nx (D.nuAt k) (D.nzAt k) c = .ok l ∧ (∀ a ∈ l, Means D k ny a.1 a.2)
      ∧ (∀ a ∈ l, ny ≠ 0 ∧ (a.1 = .yref ∨ (a.1 = .W ∧ (c.kind = .ls ∨ c.kind = .nls)) ∨ c.kind = .ls))
      ∧ (ny ≠ 0 → Fld.yref ∈ l.map Prod.fst)
      ∧ (ny ≠ 0 → c.kind = .ls ∨ c.kind = .nls → Fld.W ∈ l.map Prod.fst)
      ∧ (ny ≠ 0 → c.kind = .ls → Fld.Vx ∈ l.map Prod.fst)
      ∧ (ny ≠ 0 → c.kind = .ls → 0 < D.nuAt k → Fld.Vu ∈ l.map Prod.fst)
      ∧ (ny ≠ 0 → c.kind = .ls → 0 < D.nzAt k → Fld.Vz ∈ l.map Prod.fst) := by
  subst hc
  unfold costCalls
  by_cases h0 : ny = 0
  · rw [if_pos h0]
    exact ⟨[], rfl, by simp, by simp, by omega, by omega, by omega, by omega, by omega⟩
  · rw [if_neg h0]
    obtain ⟨y, ey, hy'⟩ := vecBuf_ok hy
    have ew : ∃ l, (if (D.at k).kind = .nls ∨ (D.at k).kind = .ls then (matBuf ny ny (D.at k).W).map fun b => [(Fld.W, b)]
        else .ok []) = (.ok l : Except Err (List (Call K))) ∧ (∀ a ∈ l, Means D k ny a.1 a.2)
        ∧ (∀ a ∈ l, a.1 = .W ∧ ((D.at k).kind = .ls ∨ (D.at k).kind = .nls))
        ∧ ((D.at k).kind = .ls ∨ (D.at k).kind = .nls → Fld.W ∈ l.map Prod.fst) := by
      by_cases h : (D.at k).kind = .nls ∨ (D.at k).kind = .ls
      · rw [if_pos h]
        obtain ⟨b, eb, hb⟩ := matBuf_ok (.inr (.inr (hw h.symm)) : ny = 0 ∨ ny = 0 ∨ _)
        rw [eb]
        refine ⟨_, rfl, ?_, ?_, ?_⟩
        · intro a ha; rw [List.mem_singleton] at ha; subst ha; exact hb
        · intro a ha; rw [List.mem_singleton] at ha; subst ha; exact ⟨rfl, h.symm⟩
        · intro _; simp
      · rw [if_neg h]
        exact ⟨[], rfl, by simp, by simp, fun h' => absurd h'.symm h⟩
    have gen : ∀ (f : Fld) (m : Nat) (A : Arr K) (q : Prop) [Decidable q],
        (∀ b, (∀ i < ny, ∀ j < m, b (i + ny * j) = A.el i j) → Means D k ny f b) →
        ((D.at k).kind = .ls → ny = 0 ∨ m = 0 ∨ (ny ≤ A.rows ∧ m ≤ A.cols)) →
        (q → (D.at k).kind = .ls) →
        ∃ l, (if q then (matBuf ny m A).map fun b => [(f, b)] else .ok []) = (.ok l : Except Err (List (Call K)))
          ∧ (∀ a ∈ l, Means D k ny a.1 a.2) ∧ (∀ a ∈ l, (D.at k).kind = .ls) ∧ (q → f ∈ l.map Prod.fst) := by
      intro f m A q _ hm hk hq
      by_cases h : q
      · rw [if_pos h]
        obtain ⟨b, eb, hb⟩ := matBuf_ok (hk (hq h))
        rw [eb]
        refine ⟨_, rfl, ?_, ?_, ?_⟩
        · intro a ha; rw [List.mem_singleton] at ha; subst ha; exact hm b hb
        · intro a _; exact hq h
        · intro _; simp
      · rw [if_neg h]
        exact ⟨[], rfl, by simp, by simp, fun h' => absurd h' h⟩
    obtain ⟨w, ew, w1, w2, w3⟩ := ew
    obtain ⟨x, ex, x1, x2, x3⟩ := gen .Vx D.nx (D.at k).Vx ((D.at k).kind = .ls) (fun b h => h) hx id
    obtain ⟨u, eu, u1, u2, u3⟩ := gen .Vu (D.nuAt k) (D.at k).Vu ((D.at k).kind = .ls ∧ 0 < D.nuAt k) (fun b h => h) hu And.left
    obtain ⟨z, ez, z1, z2, z3⟩ := gen .Vz (D.nzAt k) (D.at k).Vz ((D.at k).kind = .ls ∧ 0 < D.nzAt k) (fun b h => h) hz And.left
    rw [ey]
    simp only [ew, ex, eu, ez]
    refine ⟨_, rfl, ?_, ?_, ?_, ?_, ?_, ?_, ?_⟩
    · intro a ha
      simp only [List.mem_cons, List.mem_append] at ha
      rcases ha with rfl | ((ha | ha) | ha) | ha
      · exact hy'
      · exact w1 a ha
      · exact x1 a ha
      · exact u1 a ha
      · exact z1 a ha
    · intro a ha
      simp only [List.mem_cons, List.mem_append] at ha
      refine ⟨h0, ?_⟩
      rcases ha with rfl | ((ha | ha) | ha) | ha
      · exact .inl rfl
      · exact .inr (.inl (w2 a ha))
      · exact .inr (.inr (x2 a ha))
      · exact .inr (.inr (u2 a ha))
      · exact .inr (.inr (z2 a ha))
    · intro _; simp
    · intro _ h
      simp only [List.map_cons, List.map_append, List.mem_cons, List.mem_append]
      exact .inr (.inl (.inl (.inl (w3 h))))
    · intro _ h
      simp only [List.map_cons, List.map_append, List.mem_cons, List.mem_append]
      exact .inr (.inl (.inl (.inr (x3 h))))
    · intro _ h h'
      simp only [List.map_cons, List.map_append, List.mem_cons, List.mem_append]
      exact .inr (.inl (.inr (u3 ⟨h, h'⟩)))
    · intro _ h h'
      simp only [List.map_cons, List.map_append, List.mem_cons, List.mem_append]
      exact .inr (.inr (z3 ⟨h, h'⟩))

omit [DecidableEq K] in
/-- the value of the cost for data that agree with the description -/
theorem value_eq (D : Desc K) (k : Nat) (a : Cost.LsData K) (hk : (D.at k).kind = .ls)
    (h : ∀ f, Agree D k a f)
    (hsym : ∀ i < (D.at k).W.rows, ∀ j < (D.at k).W.rows, (D.at k).W.el i j = (D.at k).W.el j i) (ux z : Nat → K) :
    a.value (D.nuAt k) D.nx (D.nzAt k) (D.at k).W.rows (D.nsAt k) ux z
      = stageCost D k (fun i => ux (D.nuAt k + i)) ux z (fun i => ux (D.nuAt k + D.nx + i))
          (fun i => ux (D.nuAt k + D.nx + D.nsAt k + i)) := by
  have hny : (D.at k).ny = (D.at k).W.rows := by unfold Cost.ny; rw [hk]
  have hS := h .scaling
  have hY := h .yref
  have hW := h .W
  have hX := h .Vx
  have hU := h .Vu
  have hZ := h .Vz
  have p1 := h .Zl
  have p2 := h .Zu
  have p3 := h .zl
  have p4 := h .zu
  simp only [Agree, hny] at hS hY hW hX hU hZ p1 p2 p3 p4
  have hres : ∀ i < (D.at k).W.rows, a.res (D.nuAt k) D.nx (D.nzAt k) ux z i
      = residual D.nx (D.nuAt k) (D.nzAt k) (D.at k) (fun i => ux (D.nuAt k + i)) ux z i := by
    intro i hi
    unfold Cost.LsData.res residual
    rw [hY i hi]
    rw [add_comm (∑ j ∈ range (D.nuAt k), _) (∑ j ∈ range D.nx, _)]
    congr 1
    congr 1
    · congr 1
      · exact sum_congr rfl fun j hj => by rw [hX i hi j (mem_range.1 hj)]
      · exact sum_congr rfl fun j hj => by rw [hU i hi j (mem_range.1 hj)]
    · exact sum_congr rfl fun j hj => by rw [hZ i hi j (mem_range.1 hj)]
  unfold Cost.LsData.value stageCost
  rw [hS]
  congr 1
  congr 1
  · unfold Cost.halfSq form
    congr 1
    refine sum_congr rfl fun i hi => sum_congr rfl fun j hj => ?_
    rw [mem_range] at hi hj
    rw [hres i hi, hres j hj]
    congr 2
    unfold Cost.symL
    split
    · exact hW i hi j hj
    · rw [hW j hj i hi, hsym j hj i hi]
  · unfold Cost.slackCost penalty
    rw [two_mul, sum_range_add, ← sum_add_distrib]
    refine sum_congr rfl fun i hi => ?_
    rw [mem_range] at hi
    rw [p1 i hi, p2 i hi, p3 i hi, p4 i hi, ← add_assoc (D.nuAt k + D.nx)]
    ring

end

end Acados.OcpCost
