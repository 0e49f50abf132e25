import Verif.Model.CostForm
import Mathlib.Tactic.Ring
import Mathlib.Tactic.LinearCombination
import Mathlib.Algebra.BigOperators.Ring.Finset
import Mathlib.Tactic.FieldSimp
/-! Helper lemmas for `Verif/Props/CostForm.lean` -/
namespace Acados.CostForm
open Finset
variable {K F : Type} [Field K]

theorem eval_sumE (L : Lang K F) (v : Env K) (n : Nat) (f : Nat → Ex K F) :
    (sumE n f).eval L v = ∑ i ∈ range n, (f i).eval L v := by
  induction n with
  | zero => rfl
  | succ n ih => rw [sum_range_succ, ← ih]; rfl

theorem eval_sub (L : Lang K F) (v : Env K) (a b : Ex K F) : (a.sub b).eval L v = a.eval L v - b.eval L v := by
  show a.eval L v + (-1) * b.eval L v = _
  ring

theorem eval_substR (L : Lang K F) (v : Env K) (res : Nat → Ex K F) (e : Ex K F) :
    (e.substR res).eval L v = e.eval L (v.withR fun i => (res i).eval L v) := by
  induction e with
  | const c => rfl
  | sym s => cases s <;> rfl
  | add a b iha ihb => show (a.substR res).eval L v + (b.substR res).eval L v = _; rw [iha, ihb]; rfl
  | mul a b iha ihb => show (a.substR res).eval L v * (b.substR res).eval L v = _; rw [iha, ihb]; rfl
  | fn f a b iha ihb => show L.I f ((a.substR res).eval L v) ((b.substR res).eval L v) = _; rw [iha, ihb]; rfl

theorem eval_quadE (L : Lang K F) (v : Env K) (n : Nat) (W : Nat → Nat → Ex K F) (res : Nat → Ex K F) :
    (quadE n W res).eval L v = wls n (fun i j => (W i j).eval L v) (fun i => (res i).eval L v) := by
  show (1 / 2) * (sumE n fun j => .mul (sumE n fun i => .mul (res i) (W i j)) (res j)).eval L v = _
  unfold wls
  rw [eval_sumE]
  congr 1
  rw [Finset.sum_comm]
  refine sum_congr rfl fun j _ => ?_
  show (sumE n fun i => .mul (res i) (W i j)).eval L v * _ = _
  rw [eval_sumE, sum_mul]
  rfl

theorem wls_congr {n : Nat} {W W' : Nat → Nat → K} {r r' : Nat → K} (hW : ∀ i < n, ∀ j < n, W i j = W' i j)
    (hr : ∀ i < n, r i = r' i) : wls n W r = wls n W' r' := by
  unfold wls
  congr 1
  refine sum_congr rfl fun i hi => sum_congr rfl fun j hj => ?_
  rw [hr i (mem_range.1 hi), hr j (mem_range.1 hj), hW i (mem_range.1 hi) j (mem_range.1 hj)]

theorem eval_rowE (L : Lang K F) (v : Env K) (V : Mat K) (s : Nat → Sym) (n i : Nat) (hr : i < V.rows) (hc : V.cols = n) :
    (rowE V s n i : Ex K F).eval L v = ∑ j ∈ range n, V.at i j * v (s j) := by
  unfold rowE
  rw [eval_sumE]
  refine sum_congr rfl fun j hj => ?_
  have hj' := mem_range.1 hj
  show V.e i j * v (s j) = _
  unfold Mat.at
  rw [if_pos ⟨hr, by omega⟩]

theorem at_empty (V : Mat K) (h : V.isEmpty = true) (i j : Nat) : V.at i j = 0 := by
  unfold Mat.at
  rw [if_neg]
  rintro ⟨a, b⟩
  unfold Mat.isEmpty at h
  rcases Bool.or_eq_true _ _ ▸ h with h | h
  · have := beq_iff_eq.1 h; omega
  · have := beq_iff_eq.1 h; omega

theorem eval_addRow (L : Lang K F) (v : Env K) (V : Mat K) (s : Nat → Sym) (n m i : Nat) (res : Ex K F)
    (hf : V.fits m n = true) (hi : i < m) :
    (addRow V s n i res).eval L v = res.eval L v + ∑ j ∈ range n, V.at i j * v (s j) := by
  unfold addRow
  by_cases he : V.isEmpty = true
  · rw [if_pos he, sum_eq_zero fun j _ => by rw [at_empty V he, zero_mul], add_zero]
  · rw [if_neg he]
    have hf' : (V.rows == m && V.cols == n) = true := by
      unfold Mat.fits at hf
      rcases Bool.or_eq_true _ _ ▸ hf with h | h
      · exact absurd h he
      · exact h
    have h1 := Bool.and_eq_true _ _ ▸ hf'
    have ha := beq_iff_eq.1 h1.1
    have hb := beq_iff_eq.1 h1.2
    show res.eval L v + (rowE V s n i).eval L v = _
    rw [eval_rowE L v V s n i (by omega) hb]

theorem lsShapes_iff (nx nu nz : Nat) (c : SC K F) (yref : Vec (Ex K F)) (W : Mat (Ex K F)) :
    lsShapes nx nu nz c yref W = true ↔
      c.Vx.fits yref.len nx = true ∧ c.Vu.fits yref.len nu = true ∧ c.Vz.fits yref.len nz = true
        ∧ W.rows = yref.len ∧ W.cols = yref.len := by
  unfold lsShapes
  simp only [Bool.and_eq_true, beq_iff_eq]
  tauto

theorem nlsShapes_iff (c : SC K F) (yref : Vec (Ex K F)) (W : Mat (Ex K F)) :
    nlsShapes c yref W = true ↔ c.y.len = yref.len ∧ W.rows = yref.len ∧ W.cols = yref.len := by
  unfold nlsShapes
  simp only [Bool.and_eq_true, beq_iff_eq]
  tauto

theorem eval_lsRes (L : Lang K F) (v : Env K) (nx nu nz : Nat) (c : SC K F) (yref : Vec (Ex K F)) (W : Mat (Ex K F))
    (h : lsShapes nx nu nz c yref W = true) (i : Nat) (hi : i < yref.len) :
    (lsRes nx nu nz c yref.e i).eval L v = (∑ j ∈ range nx, c.Vx.at i j * v (.x j)) + (∑ j ∈ range nu, c.Vu.at i j * v (.u j))
        + (∑ j ∈ range nz, c.Vz.at i j * v (.z j)) - (yref.e i).eval L v := by
  obtain ⟨h1, h2, h3, -, -⟩ := (lsShapes_iff nx nu nz c yref W).1 h
  unfold lsRes
  rw [eval_sub, eval_addRow L v _ _ _ _ _ _ h3 hi, eval_addRow L v _ _ _ _ _ _ h2 hi, eval_addRow L v _ _ _ _ _ _ h1 hi]
  show (0 : K) + _ + _ + _ - _ = _
  rw [zero_add]

/-! ### derivatives -/

theorem diff_free (L : Lang K F) (v : Env K) (s : Sym) (e : Ex K F) (h : ¬ e.occurs s) : (e.diff L s).eval L v = 0 := by
  induction e with
  | const c => rfl
  | sym t => show (if t = s then (1 : K) else 0) = 0; rw [if_neg (show ¬ t = s from h)]
  | add a b iha ihb =>
    show (a.diff L s).eval L v + (b.diff L s).eval L v = 0
    rw [iha fun x => h (Or.inl x), ihb fun x => h (Or.inr x), add_zero]
  | mul a b iha ihb =>
    show (a.diff L s).eval L v * b.eval L v + a.eval L v * (b.diff L s).eval L v = 0
    rw [iha fun x => h (Or.inl x), ihb fun x => h (Or.inr x), zero_mul, mul_zero, add_zero]
  | fn f a b iha ihb =>
    show L.I _ _ _ * (a.diff L s).eval L v + L.I _ _ _ * (b.diff L s).eval L v = 0
    rw [iha fun x => h (Or.inl x), ihb fun x => h (Or.inr x), mul_zero, mul_zero, add_zero]

theorem occurs_diff (L : Lang K F) (s t : Sym) (e : Ex K F) (h : ¬ e.occurs s) : ¬ (e.diff L t).occurs s := by
  induction e with
  | const c => exact fun x => x
  | sym _ => exact fun x => x
  | add a b iha ihb =>
    rintro (x | x)
    · exact iha (fun y => h (Or.inl y)) x
    · exact ihb (fun y => h (Or.inr y)) x
  | mul a b iha ihb =>
    rintro ((x | x) | (x | x))
    · exact iha (fun y => h (Or.inl y)) x
    · exact h (Or.inr x)
    · exact h (Or.inl x)
    · exact ihb (fun y => h (Or.inr y)) x
  | fn f a b iha ihb =>
    rintro (((x | x) | x) | ((x | x) | x))
    · exact h (Or.inl x)
    · exact h (Or.inr x)
    · exact iha (fun y => h (Or.inl y)) x
    · exact h (Or.inl x)
    · exact h (Or.inr x)
    · exact ihb (fun y => h (Or.inr y)) x

theorem diff_sumE (L : Lang K F) (s : Sym) (n : Nat) (f : Nat → Ex K F) :
    (sumE n f).diff L s = sumE n fun i => (f i).diff L s := by
  induction n with
  | zero => rfl
  | succ n ih => show Ex.add ((sumE n f).diff L s) _ = _; rw [ih]; rfl

theorem eval_diff_sub (L : Lang K F) (v : Env K) (s : Sym) (a b : Ex K F) (hb : ¬ b.occurs s) :
    ((a.sub b).diff L s).eval L v = (a.diff L s).eval L v := by
  show (a.diff L s).eval L v + (0 * b.eval L v + -1 * (b.diff L s).eval L v) = _
  rw [diff_free L v s b hb]; ring

theorem eval_diff2_sub (L : Lang K F) (v : Env K) (s t : Sym) (a b : Ex K F) (ht : ¬ b.occurs t) :
    (((a.sub b).diff L s).diff L t).eval L v = ((a.diff L s).diff L t).eval L v := by
  show ((a.diff L s).diff L t).eval L v + ((0 * b.eval L v + 0 * (b.diff L t).eval L v)
      + (0 * (b.diff L s).eval L v + -1 * ((b.diff L s).diff L t).eval L v)) = _
  rw [diff_free L v t (b.diff L s)]
  · ring
  · exact occurs_diff L t s b ht

theorem eval_mul (L : Lang K F) (v : Env K) (a b : Ex K F) : (a.mul b).eval L v = a.eval L v * b.eval L v := rfl

theorem eval_diff_mul (L : Lang K F) (v : Env K) (s : Sym) (a b : Ex K F) :
    ((a.mul b).diff L s).eval L v = (a.diff L s).eval L v * b.eval L v + a.eval L v * (b.diff L s).eval L v := rfl

theorem eval_diff2_mul (L : Lang K F) (v : Env K) (s t : Sym) (a b : Ex K F) :
    (((a.mul b).diff L s).diff L t).eval L v =
      ((a.diff L s).diff L t).eval L v * b.eval L v + (a.diff L s).eval L v * (b.diff L t).eval L v
        + ((a.diff L t).eval L v * (b.diff L s).eval L v + a.eval L v * ((b.diff L s).diff L t).eval L v) := rfl

theorem quad_grad (L : Lang K F) (v : Env K) (h2 : (2 : K) ≠ 0) (s : Sym) (n : Nat) (W : Nat → Nat → Ex K F) (res : Nat → Ex K F)
    (hW : ∀ i < n, ∀ j < n, ¬ (W i j).occurs s) (hsym : ∀ i < n, ∀ j < n, (W i j).eval L v = (W j i).eval L v) :
    ((quadE n W res).diff L s).eval L v =
      ∑ i ∈ range n, ∑ j ∈ range n, ((res i).diff L s).eval L v * (W i j).eval L v * (res j).eval L v := by
  have e1 : ((quadE n W res).diff L s).eval L v = (1 / 2) * ∑ j ∈ range n, ∑ i ∈ range n,
      (((res i).diff L s).eval L v * (W i j).eval L v * (res j).eval L v
        + (res i).eval L v * (W i j).eval L v * ((res j).diff L s).eval L v) := by
    unfold quadE
    rw [eval_diff_mul]
    show 0 * _ + (1 / 2) * _ = _
    rw [zero_mul, zero_add, diff_sumE, eval_sumE]
    congr 1
    refine sum_congr rfl fun j hj => ?_
    rw [eval_diff_mul, diff_sumE, eval_sumE, eval_sumE, sum_mul, sum_mul, ← sum_add_distrib]
    refine sum_congr rfl fun i hi => ?_
    rw [eval_diff_mul, eval_mul, diff_free L v s (W i j) (hW i (mem_range.1 hi) j (mem_range.1 hj))]
    ring
  have e2 : (∑ j ∈ range n, ∑ i ∈ range n, (res i).eval L v * (W i j).eval L v * ((res j).diff L s).eval L v)
      = ∑ i ∈ range n, ∑ j ∈ range n, ((res i).diff L s).eval L v * (W i j).eval L v * (res j).eval L v := by
    apply sum_congr rfl
    intro j hj
    apply sum_congr rfl
    intro i hi
    rw [hsym i (mem_range.1 hi) j (mem_range.1 hj)]; ring
  rw [e1]
  simp only [Finset.sum_add_distrib]
  rw [e2, sum_comm]
  field_simp
  ring

theorem quad_hess (L : Lang K F) (v : Env K) (h2 : (2 : K) ≠ 0) (s t : Sym) (n : Nat) (W : Nat → Nat → Ex K F) (res : Nat → Ex K F)
    (hs : ∀ i < n, ∀ j < n, ¬ (W i j).occurs s) (ht : ∀ i < n, ∀ j < n, ¬ (W i j).occurs t)
    (hsym : ∀ i < n, ∀ j < n, (W i j).eval L v = (W j i).eval L v) :
    (((quadE n W res).diff L s).diff L t).eval L v =
      (∑ i ∈ range n, ∑ j ∈ range n, ((res i).diff L s).eval L v * (W i j).eval L v * ((res j).diff L t).eval L v)
      + ∑ i ∈ range n, ∑ j ∈ range n, (((res i).diff L s).diff L t).eval L v * (W i j).eval L v * (res j).eval L v := by
  have e1 : (((quadE n W res).diff L s).diff L t).eval L v = (1 / 2) * ∑ j ∈ range n, ∑ i ∈ range n,
      ((((res i).diff L s).diff L t).eval L v * (W i j).eval L v * (res j).eval L v
        + ((res i).diff L s).eval L v * (W i j).eval L v * ((res j).diff L t).eval L v
        + ((res i).diff L t).eval L v * (W i j).eval L v * ((res j).diff L s).eval L v
        + (res i).eval L v * (W i j).eval L v * (((res j).diff L s).diff L t).eval L v) := by
    unfold quadE
    rw [eval_diff2_mul]
    show 0 * _ + 0 * _ + (0 * _ + (1 / 2) * _) = _
    rw [zero_mul, zero_mul, zero_mul, add_zero, zero_add, zero_add, diff_sumE, diff_sumE, eval_sumE]
    congr 1
    refine sum_congr rfl fun j hj => ?_
    rw [eval_diff2_mul, diff_sumE, diff_sumE, diff_sumE, eval_sumE, eval_sumE, eval_sumE, eval_sumE, sum_mul, sum_mul, sum_mul,
      sum_mul, ← sum_add_distrib, ← sum_add_distrib, ← sum_add_distrib]
    refine sum_congr rfl fun i hi => ?_
    have f1 := diff_free L v s (W i j) (hs i (mem_range.1 hi) j (mem_range.1 hj))
    have f2 := diff_free L v t (W i j) (ht i (mem_range.1 hi) j (mem_range.1 hj))
    have f3 := diff_free L v t ((W i j).diff L s) (occurs_diff L t s _ (ht i (mem_range.1 hi) j (mem_range.1 hj)))
    rw [eval_diff2_mul, eval_diff_mul, eval_diff_mul, eval_mul, f1, f2, f3]
    ring
  have sw : ∀ a b : Nat → K, (∑ j ∈ range n, ∑ i ∈ range n, a i * (W i j).eval L v * b j)
      = ∑ i ∈ range n, ∑ j ∈ range n, b i * (W i j).eval L v * a j := by
    intro a b
    apply sum_congr rfl
    intro j hj
    apply sum_congr rfl
    intro i hi
    rw [hsym i (mem_range.1 hi) j (mem_range.1 hj)]; ring
  rw [e1]
  simp only [Finset.sum_add_distrib]
  rw [sw (fun i => (res i).eval L v), sw (fun i => ((res i).diff L t).eval L v),
    sum_comm (f := fun j i => (((res i).diff L s).diff L t).eval L v * (W i j).eval L v * (res j).eval L v),
    sum_comm (f := fun j i => ((res i).diff L s).eval L v * (W i j).eval L v * ((res j).diff L t).eval L v)]
  field_simp
  ring

/-! ### one cost term -/

theorem fits_iff {α : Type} (M : Mat α) (n m : Nat) : M.fits n m = true ↔ M.Fits n m := by
  unfold Mat.fits Mat.isEmpty Mat.Fits
  simp only [Bool.or_eq_true, Bool.and_eq_true, beq_iff_eq]

theorem nil_fits {α : Type} [Zero α] (n m : Nat) : (Mat.nil : Mat α).Fits n m := Or.inl (Or.inl rfl)

/-- the three tests before the translation -/
theorem translateTerm_tests (L : Lang K F) (nx nu nz : Nat) (st : Stage) (yref? : Option (Vec (Ex K F)))
    (W? : Option (Mat (Ex K F))) (h : HessKind) (c : SC K F)
    (ht : (translateTerm L nx nu nz st yref? W? h c).isOk = true) :
    (h = .gaussNewton → c.kind = some .linearLs ∨ c.kind = some .nonlinearLs ∨ (st = .initial ∧ c.kind = none))
  ∧ (∀ y, yref? = some y → y.len = c.yref.len)
  ∧ (∀ W, W? = some W → W.rows = c.W.rows ∧ W.cols = c.W.cols) := by
  unfold translateTerm at ht
  split at ht
  · cases ht
  · rename_i h1
    split at ht
    · cases ht
    · rename_i h2
      split at ht
      · cases ht
      · rename_i h3
        refine ⟨fun hg => ?_, fun y hy => ?_, fun W hW => ?_⟩
        · by_contra hn; exact h1 ⟨hg, hn⟩
        · subst hy
          by_contra hn
          exact h2 (by simpa using hn)
        · subst hW
          by_contra hn
          refine h3 ?_
          simp only [Option.any_some, Bool.or_eq_true, bne_iff_ne]
          by_contra hc
          exact hn ⟨not_not.1 fun x => hc (Or.inl x), not_not.1 fun x => hc (Or.inr x)⟩

/-- the translation after the tests -/
def translateBody (L : Lang K F) (nx nu nz : Nat) (st : Stage) (yref : Vec (Ex K F)) (W : Mat (Ex K F)) (h : HessKind)
    (c : SC K F) : Out (SC K F) :=
    match c.kind with
    | none => .ok c
    | some .linearLs =>
      if lsShapes nx nu nz (c.atStage st) yref W then
        .ok { c with
          kind := some .external
          ext := some (quadE yref.len W.e (lsRes nx nu nz (c.atStage st) yref.e))
          Vx := .nil, Vu := .nil, Vz := .nil, W := .nil, yref := .nil, y := .nil }
      else .raised c
    | some .nonlinearLs =>
      if nlsShapes c yref W then
        .ok { c with
          kind := some .external
          ext := some (quadE yref.len W.e (nlsRes c yref.e))
          hess := if h = .gaussNewton then some (gnHess L nx (if st = .terminal then 0 else nu) c yref.e W) else c.hess
          W := .nil, yref := .nil, y := .nil }
      else .raised c
    | some .conl =>
      match c.psi with
      | none => .raised c
      | some ψ =>
        if c.y.len == yref.len && c.nr == yref.len then
          .ok { c with
            kind := some .external
            ext := some (ψ.substR (nlsRes c yref.e))
            nr := 0, psi := none, y := .nil, yref := .nil }
        else .raised c
    | some .external => .ok { c with kind := some .external }
    | some .auto => .ok { c with kind := some .external }

theorem translateTerm_eq (L : Lang K F) (nx nu nz : Nat) (st : Stage) (yref? : Option (Vec (Ex K F)))
    (W? : Option (Mat (Ex K F))) (h : HessKind) (c : SC K F)
    (h1 : h = .gaussNewton → c.kind = some .linearLs ∨ c.kind = some .nonlinearLs ∨ (st = .initial ∧ c.kind = none))
    (h2 : ∀ y, yref? = some y → y.len = c.yref.len)
    (h3 : ∀ W, W? = some W → W.rows = c.W.rows ∧ W.cols = c.W.cols) :
    translateTerm L nx nu nz st yref? W? h c = translateBody L nx nu nz st (yref?.getD c.yref) (W?.getD c.W) h c := by
  unfold translateTerm
  rw [if_neg (fun x => x.2 (h1 x.1)), if_neg, if_neg]
  · rfl
  · cases W? with
    | none => exact fun x => by cases x
    | some W =>
      have := h3 W rfl
      simp [this.1, this.2]
  · cases yref? with
    | none => exact fun x => by cases x
    | some y =>
      have := h2 y rfl
      simp [this]

theorem getD_len (yref? : Option (Vec (Ex K F))) (c : SC K F) (h2 : ∀ y, yref? = some y → y.len = c.yref.len) :
    (yref?.getD c.yref).len = c.yref.len := by
  cases yref? with
  | none => rfl
  | some y => exact h2 y rfl

theorem getD_shape (W? : Option (Mat (Ex K F))) (c : SC K F)
    (h3 : ∀ W, W? = some W → W.rows = c.W.rows ∧ W.cols = c.W.cols) :
    (W?.getD c.W).rows = c.W.rows ∧ (W?.getD c.W).cols = c.W.cols := by
  cases W? with
  | none => exact ⟨rfl, rfl⟩
  | some W => exact h3 W rfl

theorem atStage_fits (nx nu nz : Nat) (st : Stage) (c : SC K F) (yref : Vec (Ex K F)) (W : Mat (Ex K F)) :
    lsShapes nx nu nz (c.atStage st) yref W = true ↔
      c.Vx.Fits yref.len nx ∧ (st ≠ .terminal → c.Vu.Fits yref.len nu ∧ c.Vz.Fits yref.len nz)
      ∧ W.rows = yref.len ∧ W.cols = yref.len := by
  rw [lsShapes_iff, fits_iff, fits_iff, fits_iff]
  unfold SC.atStage
  by_cases hst : st = .terminal
  · rw [if_pos hst]
    constructor
    · rintro ⟨a, -, -, b, c⟩
      exact ⟨a, fun x => absurd hst x, b, c⟩
    · rintro ⟨a, -, b, c⟩
      exact ⟨a, nil_fits _ _, nil_fits _ _, b, c⟩
  · rw [if_neg hst]
    constructor
    · rintro ⟨a, d, e, b, c⟩
      exact ⟨a, fun _ => ⟨d, e⟩, b, c⟩
    · rintro ⟨a, d, b, c⟩
      exact ⟨a, (d hst).1, (d hst).2, b, c⟩

theorem translateTerm_ok (L : Lang K F) (nx nu nz : Nat) (st : Stage) (yref? : Option (Vec (Ex K F)))
    (W? : Option (Mat (Ex K F))) (h : HessKind) (c : SC K F) :
    (translateTerm L nx nu nz st yref? W? h c).isOk = true ↔ Accepts nx nu nz st h yref? W? c := by
  constructor
  · intro ht
    obtain ⟨h1, h2, h3⟩ := translateTerm_tests L nx nu nz st yref? W? h c ht
    rw [translateTerm_eq L nx nu nz st yref? W? h c h1 h2 h3] at ht
    have hl := getD_len yref? c h2
    obtain ⟨hr, hc⟩ := getD_shape W? c h3
    refine ⟨h1, h2, h3, fun hk => ?_, fun hk => ?_, fun hk => ?_⟩
    · unfold translateBody at ht
      rw [hk] at ht
      dsimp only at ht
      split at ht
      · rename_i hs
        have := (atStage_fits nx nu nz st c _ _).1 hs
        rw [hl, hr, hc] at this
        exact this
      · cases ht
    · unfold translateBody at ht
      rw [hk] at ht
      dsimp only at ht
      split at ht
      · rename_i hs
        have := (nlsShapes_iff c _ _).1 hs
        rw [hl, hr, hc] at this
        exact this
      · cases ht
    · unfold translateBody at ht
      rw [hk] at ht
      dsimp only at ht
      split at ht
      · cases ht
      · rename_i ψ hψ
        split at ht
        · rename_i hs
          rw [hl, Bool.and_eq_true, beq_iff_eq, beq_iff_eq] at hs
          exact ⟨by rw [hψ]; exact fun x => (by cases x), hs.1, hs.2⟩
        · cases ht
  · rintro ⟨h1, h2, h3, h4, h5, h6⟩
    rw [translateTerm_eq L nx nu nz st yref? W? h c h1 h2 h3]
    have hl := getD_len yref? c h2
    obtain ⟨hr, hc⟩ := getD_shape W? c h3
    unfold translateBody
    rcases hk : c.kind with _ | _ | _ | _ | _ | _
    · rfl
    · dsimp only
      rw [if_pos]
      · rfl
      · rw [atStage_fits, hl, hr, hc]; exact h4 hk
    · dsimp only
      rw [if_pos]
      · rfl
      · rw [nlsShapes_iff, hl, hr, hc]; exact h5 hk
    · obtain ⟨a, b, d⟩ := h6 hk
      rcases hψ : c.psi with _ | ψ
      · exact absurd hψ a
      · dsimp only
        rw [if_pos]
        · rfl
        · rw [hl, Bool.and_eq_true, beq_iff_eq, beq_iff_eq]; exact ⟨b, d⟩
    · rfl
    · rfl

theorem atStage_kind (c : SC K F) (st : Stage) : (c.atStage st).kind = c.kind := by
  unfold SC.atStage; split <;> rfl

/-- the value and the type of a translated term -/
theorem translateTerm_value (L : Lang K F) (nx nu nz : Nat) (st : Stage) (yref? : Option (Vec (Ex K F)))
    (W? : Option (Mat (Ex K F))) (h : HessKind) (c c' : SC K F)
    (ht : translateTerm L nx nu nz st yref? W? h c = .ok c') (v : Env K) :
    (if st = .terminal then value L nx 0 0 c' v else value L nx nu nz c' v)
      = (if st = .terminal then value L nx 0 0 (c.withRef yref? W?) v else value L nx nu nz (c.withRef yref? W?) v)
    ∧ (c'.kind = if c.kind = none then none else some .external) := by
  have hok : (translateTerm L nx nu nz st yref? W? h c).isOk = true := by rw [ht]; rfl
  obtain ⟨h1, h2, h3⟩ := translateTerm_tests L nx nu nz st yref? W? h c hok
  rw [translateTerm_eq L nx nu nz st yref? W? h c h1 h2 h3] at ht
  unfold translateBody at ht
  rcases hk : c.kind with _ | _ | _ | _ | _ | _ <;> rw [hk] at ht <;> dsimp only at ht
  · cases ht
    refine ⟨?_, by rw [hk]; rfl⟩
    have a : ∀ n m, value L nx n m c v = none := fun n m => by unfold value; rw [hk]
    have b : ∀ n m, value L nx n m (c.withRef yref? W?) v = none := fun n m => by
      unfold value; rw [show (c.withRef yref? W?).kind = c.kind from rfl, hk]
    rw [a, a, b, b]
  · split at ht
    · rename_i hs
      cases ht
      refine ⟨?_, rfl⟩
      have e : ∀ n m, value L nx n m (c.withRef yref? W?) v = some (wls (W?.getD c.W).rows
          (fun i j => ((W?.getD c.W).e i j).eval L v) (fun i =>
          (∑ j ∈ range nx, c.Vx.at i j * v (.x j)) + (∑ j ∈ range n, c.Vu.at i j * v (.u j))
            + (∑ j ∈ range m, c.Vz.at i j * v (.z j)) - ((yref?.getD c.yref).e i).eval L v)) := fun n m => by
        unfold value; rw [show (c.withRef yref? W?).kind = c.kind from rfl, hk]; rfl
      rw [e, e]
      show (if st = .terminal then some ((quadE _ _ _).eval L v) else some ((quadE _ _ _).eval L v)) = _
      rw [eval_quadE]
      obtain ⟨-, -, -, hr, -⟩ := (lsShapes_iff _ _ _ _ _ _).1 hs
      rw [hr]
      by_cases hst : st = .terminal
      · rw [if_pos hst, if_pos hst]
        congr 1
        refine wls_congr (fun _ _ _ _ => rfl) fun i hi => ?_
        rw [eval_lsRes L v nx nu nz _ _ _ hs i hi]
        have x1 : (c.atStage st).Vx = c.Vx := by unfold SC.atStage; split <;> rfl
        have x2 : (c.atStage st).Vu = .nil := by unfold SC.atStage; rw [if_pos hst]
        have x3 : (c.atStage st).Vz = .nil := by unfold SC.atStage; rw [if_pos hst]
        have z : ∀ (n : Nat) (s : Nat → Sym), ∑ j ∈ range n, (Mat.nil : Mat K).at i j * v (s j) = 0 :=
          fun n s => sum_eq_zero fun j _ => by rw [at_empty _ rfl, zero_mul]
        rw [x1, x2, x3, z, z]
        rfl
      · rw [if_neg hst, if_neg hst]
        congr 1
        refine wls_congr (fun _ _ _ _ => rfl) fun i hi => ?_
        rw [eval_lsRes L v nx nu nz _ _ _ hs i hi]
        have x1 : c.atStage st = c := by unfold SC.atStage; rw [if_neg hst]
        rw [x1]
    · cases ht
  · split at ht
    · rename_i hs
      cases ht
      refine ⟨?_, rfl⟩
      have e : ∀ n m, value L nx n m (c.withRef yref? W?) v = some (wls (W?.getD c.W).rows
          (fun i j => ((W?.getD c.W).e i j).eval L v) (fun i => (c.y.e i).eval L v - ((yref?.getD c.yref).e i).eval L v)) := fun n m => by
        unfold value; rw [show (c.withRef yref? W?).kind = c.kind from rfl, hk]; rfl
      rw [e, e]
      show (if st = .terminal then some ((quadE _ _ _).eval L v) else some ((quadE _ _ _).eval L v)) = _
      rw [eval_quadE]
      obtain ⟨-, hr, -⟩ := (nlsShapes_iff _ _ _).1 hs
      rw [hr]
      have q : ∀ i, (nlsRes c (yref?.getD c.yref).e i).eval L v = (c.y.e i).eval L v - ((yref?.getD c.yref).e i).eval L v :=
        fun i => eval_sub L v _ _
      simp only [q]
    · cases ht
  · split at ht
    · cases ht
    · rename_i ψ hψ
      split at ht
      · cases ht
        refine ⟨?_, rfl⟩
        have e : ∀ n m, value L nx n m (c.withRef yref? W?) v
            = some (ψ.eval L (v.withR fun i => (c.y.e i).eval L v - ((yref?.getD c.yref).e i).eval L v)) := fun n m => by
          unfold value; rw [show (c.withRef yref? W?).kind = c.kind from rfl, hk]
          show c.psi.map _ = _
          rw [hψ]; rfl
        rw [e, e]
        show (if st = .terminal then some ((ψ.substR _).eval L v) else some ((ψ.substR _).eval L v)) = _
        rw [eval_substR]
        have q : ∀ i, (nlsRes c (yref?.getD c.yref).e i).eval L v = (c.y.e i).eval L v - ((yref?.getD c.yref).e i).eval L v :=
          fun i => eval_sub L v _ _
        simp only [q]
      · cases ht
  · cases ht
    refine ⟨?_, rfl⟩
    have e : ∀ n m, value L nx n m (c.withRef yref? W?) v = c.ext.map fun e => e.eval L v := fun n m => by
      unfold value; rw [show (c.withRef yref? W?).kind = c.kind from rfl, hk]; rfl
    rw [e, e]; rfl
  · cases ht
    refine ⟨?_, rfl⟩
    have e : ∀ n m, value L nx n m (c.withRef yref? W?) v = c.ext.map fun e => e.eval L v := fun n m => by
      unfold value; rw [show (c.withRef yref? W?).kind = c.kind from rfl, hk]; rfl
    rw [e, e]; rfl

theorem addStagewise_keeps (p : AddP K) (o : Ocp K F) :
    (addStagewise p o).st.nx = o.nx ∧ (addStagewise p o).st.nu = o.nu ∧ (addStagewise p o).st.nz = o.nz
      ∧ (addStagewise p o).st.cost = o.cost := by
  unfold addStagewise
  rcases p with _ | ⟨n, _ | vs⟩
  · exact ⟨rfl, rfl, rfl, rfl⟩
  · exact ⟨rfl, rfl, rfl, rfl⟩
  · dsimp only
    split
    · refine ⟨rfl, rfl, rfl, ?_⟩
      funext st
      cases st <;> rfl
    · exact ⟨rfl, rfl, rfl, rfl⟩

theorem addGlobal_keeps (p : AddP K) (o : Ocp K F) :
    (addGlobal p o).st.nx = o.nx ∧ (addGlobal p o).st.nu = o.nu ∧ (addGlobal p o).st.nz = o.nz
      ∧ (addGlobal p o).st.cost = o.cost := by
  unfold addGlobal
  rcases p with _ | ⟨n, _ | vs⟩
  · exact ⟨rfl, rfl, rfl, rfl⟩
  · exact ⟨rfl, rfl, rfl, rfl⟩
  · dsimp only
    split
    · refine ⟨rfl, rfl, rfl, ?_⟩
      funext st
      cases st <;> rfl
    · exact ⟨rfl, rfl, rfl, rfl⟩

theorem addParams_keeps (p pg : AddP K) (o : Ocp K F) :
    (addParams p pg o).st.nx = o.nx ∧ (addParams p pg o).st.nu = o.nu ∧ (addParams p pg o).st.nz = o.nz
      ∧ (addParams p pg o).st.cost = o.cost := by
  have h1 := addStagewise_keeps p o
  unfold addParams
  split
  · rename_i o₁ ho; rw [ho] at h1; exact h1
  · rename_i o₁ ho
    rw [ho] at h1
    have h2 := addGlobal_keeps pg o₁
    exact ⟨h2.1.trans h1.1, h2.2.1.trans h1.2.1, h2.2.2.1.trans h1.2.2.1, h2.2.2.2.trans h1.2.2.2⟩

theorem paramsGiven_cases (p : AddP K) : ParamsGiven p ↔
    match p with
    | none => True
    | some (_, none) => False
    | some (n, some vs) => n = vs.length := by
  rcases p with _ | ⟨n, _ | vs⟩
  · exact ⟨fun _ => trivial, fun _ q hq => by cases hq⟩
  · exact ⟨fun h => (by obtain ⟨vs, hv, -⟩ := h _ rfl; cases hv), fun h => h.elim⟩
  · exact ⟨fun h => (by obtain ⟨ws, hv, hl⟩ := h _ rfl; cases hv; exact hl.symm),
      fun h q hq => by cases hq; exact ⟨vs, rfl, h.symm⟩⟩

theorem addStagewise_ok (p : AddP K) (o : Ocp K F) : (addStagewise p o).isOk = true ↔ ParamsGiven p := by
  rw [paramsGiven_cases]
  unfold addStagewise
  rcases p with _ | ⟨n, _ | vs⟩
  · exact ⟨fun _ => trivial, fun _ => rfl⟩
  · exact ⟨fun h => (by cases h), fun h => h.elim⟩
  · dsimp only
    split
    · rename_i h; exact ⟨fun _ => h, fun _ => rfl⟩
    · rename_i h; exact ⟨fun x => (by cases x), fun x => absurd x h⟩

theorem addGlobal_ok (p : AddP K) (o : Ocp K F) : (addGlobal p o).isOk = true ↔ ParamsGiven p := by
  rw [paramsGiven_cases]
  unfold addGlobal
  rcases p with _ | ⟨n, _ | vs⟩
  · exact ⟨fun _ => trivial, fun _ => rfl⟩
  · exact ⟨fun h => (by cases h), fun h => h.elim⟩
  · dsimp only
    split
    · rename_i h; exact ⟨fun _ => h, fun _ => rfl⟩
    · rename_i h; exact ⟨fun x => (by cases x), fun x => absurd x h⟩

theorem addParams_ok (p pg : AddP K) (o : Ocp K F) : (addParams p pg o).isOk = true ↔ ParamsGiven p ∧ ParamsGiven pg := by
  have h1 := addStagewise_ok p o
  unfold addParams
  split
  · rename_i o₁ ho; rw [ho] at h1
    exact ⟨fun x => (by cases x), fun x => by have := h1.2 x.1; cases this⟩
  · rename_i o₁ ho
    rw [ho] at h1
    rw [addGlobal_ok]
    exact ⟨fun x => ⟨h1.1 rfl, x⟩, fun x => x.2⟩

theorem addParams_lengths (p pg : AddP K) (o : Ocp K F) (h1 : o.pVals.length = o.np) (h2 : o.pGlobalVals.length = o.npGlobal) :
    (addParams p pg o).st.pVals.length = (addParams p pg o).st.np
      ∧ (addParams p pg o).st.pGlobalVals.length = (addParams p pg o).st.npGlobal := by
  have a : (addStagewise p o).st.pVals.length = (addStagewise p o).st.np
      ∧ (addStagewise p o).st.pGlobalVals.length = (addStagewise p o).st.npGlobal := by
    unfold addStagewise
    rcases p with _ | ⟨n, _ | vs⟩
    · exact ⟨h1, h2⟩
    · exact ⟨h1, h2⟩
    · dsimp only
      split
      · rename_i h
        refine ⟨?_, h2⟩
        show (o.pVals ++ vs).length = o.np + n
        rw [List.length_append, h1, h]
      · exact ⟨h1, h2⟩
  have b : ∀ o₁ : Ocp K F, o₁.pVals.length = o₁.np → o₁.pGlobalVals.length = o₁.npGlobal →
      (addGlobal pg o₁).st.pVals.length = (addGlobal pg o₁).st.np
      ∧ (addGlobal pg o₁).st.pGlobalVals.length = (addGlobal pg o₁).st.npGlobal := by
    intro o₁ h1 h2
    unfold addGlobal
    rcases pg with _ | ⟨n, _ | vs⟩
    · exact ⟨h1, h2⟩
    · exact ⟨h1, h2⟩
    · dsimp only
      split
      · rename_i h
        refine ⟨h1, ?_⟩
        show (o₁.pGlobalVals ++ vs).length = o₁.npGlobal + n
        rw [List.length_append, h2, h]
      · exact ⟨h1, h2⟩
  unfold addParams
  split
  · rename_i o₁ ho; rw [ho] at a; exact a
  · rename_i o₁ ho; rw [ho] at a; exact b o₁ a.1 a.2

/-- one term of the translation to CONVEX_OVER_NONLINEAR -/
theorem nlsToConl_value (L : Lang K F) (nx nu nz : Nat) (st : Stage) (c c' : SC K F) (h : nlsToConl st c = .ok c') (v : Env K) :
    value L nx nu nz c' v = value L nx nu nz c v
      ∧ c'.kind = (if c.kind = none then none else some .conl) := by
  unfold nlsToConl at h
  rcases hk : c.kind with _ | _ | _ | _ | _ | _ <;> rw [hk] at h <;> dsimp only at h
  · split at h
    · cases h; exact ⟨rfl, hk⟩
    · cases h
  · cases h
  · split at h
    · rename_i hs
      rw [Bool.and_eq_true, Bool.and_eq_true, beq_iff_eq, beq_iff_eq] at hs
      obtain ⟨⟨hr, hc⟩, hn⟩ := hs
      cases h
      refine ⟨?_, rfl⟩
      have e : value L nx nu nz c v = some (wls c.W.rows (fun i j => (c.W.e i j).eval L v)
          (fun i => (c.y.e i).eval L v - (c.yref.e i).eval L v)) := by unfold value; rw [hk]
      rw [e, hr]
      show some ((quadE c.y.len c.W.e fun i => .sym (.r i)).eval L _) = _
      rw [eval_quadE]
      congr 1
      refine wls_congr (fun i hi j hj => ?_) fun i _ => rfl
      have hcst : (c.W.e i j).isConst = true := by
        unfold Mat.isNumeric at hn
        rw [List.all_eq_true] at hn
        have h1 := hn i (List.mem_range.2 (by omega))
        rw [List.all_eq_true] at h1
        exact h1 j (List.mem_range.2 (by omega))
      generalize c.W.e i j = w at hcst
      cases w with
      | const c => rfl
      | sym s => cases hcst
      | add a b => cases hcst
      | mul a b => cases hcst
      | fn f a b => cases hcst
    · cases h
  · cases h; exact ⟨rfl, hk⟩
  · cases h
  · cases h

end Acados.CostForm
