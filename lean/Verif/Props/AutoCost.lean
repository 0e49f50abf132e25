import Verif.Lemmas.AutoCost
import Mathlib.Algebra.Order.Ring.Rat
import Mathlib.Tactic.FieldSimp
import Mathlib.LinearAlgebra.Matrix.NonsingularInverse
/-!
# C86: cost type AUTO
-/
namespace Acados.AutoCost
open Finset Acados.CostForm
variable {K : Type} [Field K] [LinearOrder K] [IsStrictOrderedRing K]

/-- what `store` returns has the cost it was given -/
theorem store_value (st : Stage) (nx nu nz : Nat) (l l' : LS K) (h : store st nu nz l = .linear l') (x u z : Nat → K) :
    l'.value nx nu nz x u z = l.value nx nu nz x u z := by
  unfold store at h
  split at h
  · split at h
    · cases h
    · rename_i h1
      split at h
      · cases h
      · rename_i h2
        cases h
        have none : ∀ (m : Nat) (V : Nat → Nat → K), ¬ anyEntry l.ny m V = true → ∀ i < l.ny, ∀ j < m, V i j = 0 := by
          intro m V hV i hi j hj
          by_contra hn
          exact hV (List.any_eq_true.2 ⟨i, List.mem_range.2 hi, List.any_eq_true.2 ⟨j, List.mem_range.2 hj, decide_eq_true hn⟩⟩)
        unfold LS.value wls
        congr 1
        have row : ∀ i < l.ny, (∑ j ∈ range nx, l.Vx i j * x j) + (∑ j ∈ range nu, (0 : K) * u j) + (∑ j ∈ range nz, (0 : K) * z j)
            - l.yref i = (∑ j ∈ range nx, l.Vx i j * x j) + (∑ j ∈ range nu, l.Vu i j * u j) + (∑ j ∈ range nz, l.Vz i j * z j)
            - l.yref i := by
          intro i hi
          have a1 : ∑ j ∈ range nu, (0 : K) * u j = ∑ j ∈ range nu, l.Vu i j * u j :=
            sum_congr rfl fun j hj => by rw [none nu l.Vu h1 i hi j (mem_range.1 hj)]
          have a2 : ∑ j ∈ range nz, (0 : K) * z j = ∑ j ∈ range nz, l.Vz i j * z j :=
            sum_congr rfl fun j hj => by rw [none nz l.Vz h2 i hi j (mem_range.1 hj)]
          rw [a1, a2]
        refine sum_congr rfl fun i hi => sum_congr rfl fun j hj => ?_
        dsimp only
        rw [row i (mem_range.1 hi), row j (mem_range.1 hj)]
  · cases h; rfl

/-- `½ (2W)` is `W` -/
theorem llsVal_eq (ny nx nu nz : Nat) (Vx Vu Vz W : Nat → Nat → K) (yref x u z : Nat → K) :
    llsVal ny nx nu nz Vx Vu Vz W yref x u z = (LS.mk ny Vx Vu Vz (fun i j => 2 * W i j) yref).value nx nu nz x u z := by
  unfold llsVal LS.value wls
  dsimp only
  rw [mul_sum]
  refine sum_congr rfl fun i _ => ?_
  rw [mul_sum, mul_sum]
  refine sum_congr rfl fun j _ => ?_
  ring

/-- the result before it is stored -/
theorem ls_value (E : Env K) (hE : ∀ l, E.order l = l) (nx nu nz : Nat) (q : Quad K) (hs : ∀ a b, q.H a b = q.H b a)
    (yref : Nat → K) (x u z : Nat → K) :
    (LS.mk (xuzIdx (nx + nu + nz) q.H).length (unitRow (part E 0 nx (xuzIdx (nx + nu + nz) q.H)) 0 0)
        (unitRow (part E nx nu (xuzIdx (nx + nu + nz) q.H)) (part E 0 nx (xuzIdx (nx + nu + nz) q.H)).length nx)
        (unitRow (part E (nx + nu) nz (xuzIdx (nx + nu + nz) q.H)) ((part E 0 nx (xuzIdx (nx + nu + nz) q.H)).length
          + (part E nx nu (xuzIdx (nx + nu + nz) q.H)).length) (nx + nu))
        (fun i j => 2 * wRow q.H (part E 0 nx (xuzIdx (nx + nu + nz) q.H) ++ part E nx nu (xuzIdx (nx + nu + nz) q.H)
          ++ part E (nx + nu) nz (xuzIdx (nx + nu + nz) q.H)) (xuzIdx (nx + nu + nz) q.H) i j) yref).value nx nu nz x u z
      = wls (nx + nu + nz) q.H fun a => stack nx nu x u z a - refOf (nx + nu + nz) q.H yref a := by
  rw [← ls_full _ q.H hs, parts_append E hE]
  unfold LS.value
  dsimp only
  unfold wls
  congr 1
  refine sum_congr rfl fun i hi => sum_congr rfl fun j hj => ?_
  dsimp only
  rw [rows_val E hE nx nu nz q.H x u z i (mem_range.1 hi), rows_val E hE nx nu nz q.H x u z j (mem_range.1 hj)]

/-- the difference of the two costs -/
theorem diff_affine (n : Nat) (q : Quad K) (hs : ∀ a b, q.H a b = q.H b a) (yref : Nat → K)
    (h : Solves (xuzIdx n q.H).length (wRow q.H (xuzIdx n q.H) (xuzIdx n q.H)) (fun i => -(1 / 2) * q.g ((xuzIdx n q.H).getD i 0)) yref)
    (w : Nat → K) :
    wls n q.H (fun a => w a - refOf n q.H yref a)
      = q.at n w + (wls n q.H (refOf n q.H yref) - q.c) - ∑ a ∈ range n, if a ∈ xuzIdx n q.H then 0 else q.g a * w a := by
  rw [wls_sub n q.H hs]
  unfold Quad.at
  have e : ∑ a ∈ range n, w a * ∑ b ∈ range n, q.H a b * refOf n q.H yref b
      = (∑ a ∈ range n, if a ∈ xuzIdx n q.H then 0 else q.g a * w a) - ∑ a ∈ range n, q.g a * w a := by
    rw [← sum_sub_distrib]
    refine sum_congr rfl fun a ha => ?_
    by_cases hm : a ∈ xuzIdx n q.H
    · rw [if_pos hm, solve_full n q hs yref h a hm]; ring
    · rw [if_neg hm, sub_self]
      have hz : ∀ b < n, q.H a b = 0 := by
        intro b hb
        by_contra hn
        exact hm ((mem_xuzIdx n q.H a).2 ⟨mem_range.1 ha, b, hb, hn⟩)
      rw [sum_eq_zero fun b hb => by rw [hz b (mem_range.1 hb), zero_mul], mul_zero]
  rw [e]
  ring

/-- what a linear result of a cost that is not zero is -/
theorem detect_linear (E : Env K) (st : Stage) (nx nu nz : Nat) (e : Expr K) (q : Quad K) (hq : e.form = some q)
    (hz : e.isZero = false) (l : LS K) (h : detect E st nx nu nz e = .linear l) :
    ∃ yref, E.solve (xuzIdx (nx + nu + nz) q.H).length
        (wRow q.H (part E 0 nx (xuzIdx (nx + nu + nz) q.H) ++ part E nx nu (xuzIdx (nx + nu + nz) q.H)
          ++ part E (nx + nu) nz (xuzIdx (nx + nu + nz) q.H)) (xuzIdx (nx + nu + nz) q.H))
        (fun i => -(1 / 2) * q.g ((xuzIdx (nx + nu + nz) q.H).getD i 0)) = some yref ∧
      (∀ P ∈ E.pts, badErr E.tol (l.value nx nu nz P.1 P.2.1 P.2.2) (q.at (nx + nu + nz) (stack nx nu P.1 P.2.1 P.2.2)) = false) ∧
      ∀ x u z, l.value nx nu nz x u z
        = (LS.mk (xuzIdx (nx + nu + nz) q.H).length (unitRow (part E 0 nx (xuzIdx (nx + nu + nz) q.H)) 0 0)
        (unitRow (part E nx nu (xuzIdx (nx + nu + nz) q.H)) (part E 0 nx (xuzIdx (nx + nu + nz) q.H)).length nx)
        (unitRow (part E (nx + nu) nz (xuzIdx (nx + nu + nz) q.H)) ((part E 0 nx (xuzIdx (nx + nu + nz) q.H)).length
          + (part E nx nu (xuzIdx (nx + nu + nz) q.H)).length) (nx + nu))
        (fun i j => 2 * wRow q.H (part E 0 nx (xuzIdx (nx + nu + nz) q.H) ++ part E nx nu (xuzIdx (nx + nu + nz) q.H)
          ++ part E (nx + nu) nz (xuzIdx (nx + nu + nz) q.H)) (xuzIdx (nx + nu + nz) q.H) i j) yref).value nx nu nz x u z := by
  unfold detect at h
  split at h
  · rw [hz, if_neg (by decide), hq] at h
    dsimp only at h
    split at h
    · cases h
    · rename_i yref hy
      split at h
      · cases h
      · rename_i hp
        refine ⟨yref, hy, ?_, fun x u z => store_value st nx nu nz _ l h x u z⟩
        intro P hP
        rw [store_value st nx nu nz _ l h, ← llsVal_eq]
        by_contra hn
        exact hp (List.any_eq_true.2 ⟨P, hP, by simpa using hn⟩)
  · cases h

/-- **C86** (detected cost).  If the cost is detected to be LINEAR_LS and Python lists the indices in ascending order, then the new
cost differs from the given one by a constant and by a linear function of those variables on which the cost depends at most
linearly; at all states, inputs and algebraic variables. -/
theorem C86_linear_partial (E : Env K) (hE : ∀ l, E.order l = l) (hS : IsSolver E.solve) (st : Stage) (nx nu nz : Nat) (e : Expr K) (q : Quad K)
    (hq : e.form = some q) (hs : ∀ a b, q.H a b = q.H b a) (hz : e.isZero = false) (l : LS K)
    (h : detect E st nx nu nz e = .linear l) :
    ∃ (κ : K) (γ : Nat → K), (∀ a < nx + nu + nz, ¬ LinearOnly q (nx + nu + nz) a → γ a = 0) ∧
      (∀ a < nx + nu + nz, LinearOnly q (nx + nu + nz) a → γ a = q.g a) ∧
      ∀ x u z, l.value nx nu nz x u z = q.at (nx + nu + nz) (stack nx nu x u z) + κ
        - ∑ a ∈ range (nx + nu + nz), γ a * stack nx nu x u z a := by
  obtain ⟨yref, h1, -, h3⟩ := detect_linear E st nx nu nz e q hq hz l h
  have hsol := hS.1 _ _ _ _ h1
  rw [parts_append E hE] at hsol
  refine ⟨wls (nx + nu + nz) q.H (refOf (nx + nu + nz) q.H yref) - q.c,
    fun a => if a ∈ xuzIdx (nx + nu + nz) q.H then 0 else q.g a, ?_, ?_, fun x u z => ?_⟩
  · intro a ha hn
    dsimp only
    rw [if_pos]
    rw [mem_xuzIdx]
    refine ⟨ha, ?_⟩
    by_contra hc
    refine hn fun b hb => ?_
    by_contra h0
    exact hc ⟨b, hb, h0⟩
  · intro a ha hl
    dsimp only
    rw [if_neg]
    rw [mem_xuzIdx]
    rintro ⟨-, b, hb, h0⟩
    exact h0 (hl b hb)
  · rw [h3, ls_value E hE nx nu nz q hs, diff_affine _ q hs yref hsol]
    congr 1
    refine sum_congr rfl fun a _ => ?_
    dsimp only
    by_cases hm : a ∈ xuzIdx (nx + nu + nz) q.H
    · rw [if_pos hm, if_pos hm, zero_mul]
    · rw [if_neg hm, if_neg hm]

/-- **C86** (check).  In whatever order Python lists the indices, an accepted LINEAR_LS cost agrees with the given one at the test
points up to the tolerance. -/
theorem C86_checked (E : Env K) (st : Stage) (nx nu nz : Nat) (e : Expr K) (q : Quad K) (hq : e.form = some q)
    (hz : e.isZero = false) (l : LS K) (h : detect E st nx nu nz e = .linear l) (x u z : Nat → K) (hP : (x, u, z) ∈ E.pts) :
    l.value nx nu nz x u z = q.at (nx + nu + nz) (stack nx nu x u z) ∨
    |l.value nx nu nz x u z - q.at (nx + nu + nz) (stack nx nu x u z)|
      ≤ E.tol * max |l.value nx nu nz x u z| |q.at (nx + nu + nz) (stack nx nu x u z)| := by
  obtain ⟨yref, -, h2, -⟩ := detect_linear E st nx nu nz e q hq hz l h
  have := h2 _ hP
  dsimp only at this
  generalize l.value nx nu nz x u z = a at *
  generalize q.at (nx + nu + nz) (stack nx nu x u z) = b at *
  have := of_decide_eq_false this
  rcases eq_or_ne (max |a| |b|) 0 with h0 | h0
  · left
    have ha : |a| ≤ 0 := h0 ▸ le_max_left _ _
    have hb : |b| ≤ 0 := h0 ▸ le_max_right _ _
    rw [abs_nonpos_iff.1 ha, abs_nonpos_iff.1 hb]
  · right
    have hpos : 0 < max |a| |b| := lt_of_le_of_ne (le_max_of_le_left (abs_nonneg _)) (Ne.symm h0)
    by_contra hc
    refine this ⟨h0, ?_⟩
    rw [lt_div_iff₀ hpos]
    exact not_le.1 hc

/-- a squared distance: the gradient and the constant -/
theorem square_coeff (n : Nat) (q : Quad K) (hs : ∀ a b, q.H a b = q.H b a) (r : Nat → K) (h : SquareOf q n r) :
    q.c = wls n q.H r ∧ ∀ a < n, q.g a = -∑ b ∈ range n, q.H a b * r b := by
  have key : ∀ w : Nat → K, (∑ a ∈ range n, q.g a * w a) + q.c = -(∑ a ∈ range n, w a * ∑ b ∈ range n, q.H a b * r b) + wls n q.H r := by
    intro w
    have := h w
    rw [wls_sub n q.H hs] at this
    unfold Quad.at at this
    linear_combination this
  have hc : q.c = wls n q.H r := by
    have := key fun _ => 0
    simp only [mul_zero, zero_mul, sum_const_zero, zero_add, neg_zero] at this
    exact this
  refine ⟨hc, fun a ha => ?_⟩
  have := key fun b => if b = a then 1 else 0
  rw [hc] at this
  simp only [mul_ite, mul_one, mul_zero, ite_mul, one_mul, zero_mul, sum_ite_eq', mem_range, if_pos ha] at this
  linear_combination this

/-- **C86** (exactness).  The cost is a weighted squared distance to a point with a Hessian that is nonsingular on the variables on
which it depends, and the indices are listed in ascending order.  Then, at the initial and path stages, the cost is reformulated, and the LINEAR_LS cost
equals the given one at all states, inputs and algebraic variables. -/
theorem C86_exact (E : Env K) (hE : ∀ l, E.order l = l) (hS : IsSolver E.solve)
    (ht : 0 ≤ E.tol) (st : Stage) (hst : st ≠ .terminal) (nx nu nz : Nat) (e : Expr K) (he : e.tests = true) (q : Quad K)
    (hq : e.form = some q) (hs : ∀ a b, q.H a b = q.H b a) (hz : e.isZero = false) (r : Nat → K)
    (hr : SquareOf q (nx + nu + nz) r)
    (hns : Nonsingular q (nx + nu + nz)) :
    ∃ l, detect E st nx nu nz e = .linear l ∧
      ∀ x u z, l.value nx nu nz x u z = q.at (nx + nu + nz) (stack nx nu x u z) := by
  obtain ⟨hc, hg⟩ := square_coeff _ q hs r hr
  have hpa := parts_append E hE nx nu nz q.H
  obtain ⟨yref, hy⟩ := hS.2 (xuzIdx (nx + nu + nz) q.H).length
    (wRow q.H (xuzIdx (nx + nu + nz) q.H) (xuzIdx (nx + nu + nz) q.H))
    (fun i => -(1 / 2) * q.g ((xuzIdx (nx + nu + nz) q.H).getD i 0)) (by
      intro d hd i hi
      have hd' : Solves (xuzIdx (nx + nu + nz) q.H).length (wRow q.H (xuzIdx (nx + nu + nz) q.H) (xuzIdx (nx + nu + nz) q.H))
          (fun i => -(1 / 2) * (Quad.mk q.H (fun _ => 0) q.c).g ((xuzIdx (nx + nu + nz) q.H).getD i 0)) d := by
        intro i hi
        rw [hd i hi]
        show (0 : K) = -(1 / 2) * 0
        rw [mul_zero]
      have full := solve_full (nx + nu + nz) ⟨q.H, fun _ => 0, q.c⟩ hs d hd'
      have hm : (xuzIdx (nx + nu + nz) q.H).getD i 0 ∈ xuzIdx (nx + nu + nz) q.H := by
        rw [List.getD_eq_getElem?_getD, List.getElem?_eq_getElem hi]
        exact List.getElem_mem hi
      obtain ⟨hin, b, hb, hne⟩ := (mem_xuzIdx _ q.H _).1 hm
      rw [← refOf_pos (nx + nu + nz) q.H d i hi]
      refine hns (refOf (nx + nu + nz) q.H d) (fun a ha => ?_) _ hin fun hl => hne (hl b hb)
      by_cases hma : a ∈ xuzIdx (nx + nu + nz) q.H
      · have := full a hma
        rw [neg_zero] at this
        exact this
      · refine sum_eq_zero fun b hb => ?_
        have : q.H a b = 0 := by
          by_contra hn
          exact hma ((mem_xuzIdx _ q.H a).2 ⟨ha, b, mem_range.1 hb, hn⟩)
        rw [this, zero_mul])
  have hsolv := hS.1 _ _ _ _ hy
  have eqv : ∀ x u z, wls (nx + nu + nz) q.H (fun a => stack nx nu x u z a - refOf (nx + nu + nz) q.H yref a)
      = q.at (nx + nu + nz) (stack nx nu x u z) := by
    intro x u z
    rw [diff_affine _ q hs yref hsolv, hc]
    have same : ∀ a < nx + nu + nz, ∑ b ∈ range (nx + nu + nz), q.H a b * refOf (nx + nu + nz) q.H yref b
        = ∑ b ∈ range (nx + nu + nz), q.H a b * r b := by
      intro a ha
      by_cases hm : a ∈ xuzIdx (nx + nu + nz) q.H
      · rw [solve_full _ q hs yref hsolv a hm, hg a ha, neg_neg]
      · have h0 : ∀ b < nx + nu + nz, q.H a b = 0 := by
          intro b hb
          by_contra hn
          exact hm ((mem_xuzIdx _ q.H a).2 ⟨ha, b, hb, hn⟩)
        rw [sum_eq_zero fun b hb => by rw [h0 b (mem_range.1 hb), zero_mul],
          sum_eq_zero fun b hb => by rw [h0 b (mem_range.1 hb), zero_mul]]
    have quad : ∀ s : Nat → K, wls (nx + nu + nz) q.H s = 1 / 2 * ∑ a ∈ range (nx + nu + nz), s a * ∑ b ∈ range (nx + nu + nz), q.H a b * s b := by
      intro s
      unfold wls
      congr 1
      refine sum_congr rfl fun a _ => ?_
      rw [mul_sum]
      refine sum_congr rfl fun b _ => ?_
      ring
    have swap : ∀ s t : Nat → K, ∑ a ∈ range (nx + nu + nz), s a * ∑ b ∈ range (nx + nu + nz), q.H a b * t b
        = ∑ a ∈ range (nx + nu + nz), t a * ∑ b ∈ range (nx + nu + nz), q.H a b * s b := by
      intro s t
      simp only [mul_sum]
      rw [sum_comm]
      refine sum_congr rfl fun b _ => sum_congr rfl fun a _ => ?_
      rw [hs a b]; ring
    have k0 : wls (nx + nu + nz) q.H (refOf (nx + nu + nz) q.H yref) = wls (nx + nu + nz) q.H r := by
      rw [quad, quad, sum_congr rfl fun a ha => by rw [same a (mem_range.1 ha)], swap,
        sum_congr rfl fun a ha => by rw [same a (mem_range.1 ha)]]
    have l0 : ∑ a ∈ range (nx + nu + nz), (if a ∈ xuzIdx (nx + nu + nz) q.H then (0 : K) else q.g a * stack nx nu x u z a) = 0 := by
      refine sum_eq_zero fun a ha => ?_
      by_cases hm : a ∈ xuzIdx (nx + nu + nz) q.H
      · rw [if_pos hm]
      · rw [if_neg hm, hg a (mem_range.1 ha)]
        have h0 : ∀ b < nx + nu + nz, q.H a b = 0 := by
          intro b hb
          by_contra hn
          exact hm ((mem_xuzIdx _ q.H a).2 ⟨mem_range.1 ha, b, hb, hn⟩)
        rw [sum_eq_zero fun b hb => by rw [h0 b (mem_range.1 hb), zero_mul]]
        ring
    rw [k0, l0]
    ring
  have hv := ls_value E hE nx nu nz q hs yref
  refine ⟨LS.mk (xuzIdx (nx + nu + nz) q.H).length (unitRow (part E 0 nx (xuzIdx (nx + nu + nz) q.H)) 0 0)
        (unitRow (part E nx nu (xuzIdx (nx + nu + nz) q.H)) (part E 0 nx (xuzIdx (nx + nu + nz) q.H)).length nx)
        (unitRow (part E (nx + nu) nz (xuzIdx (nx + nu + nz) q.H)) ((part E 0 nx (xuzIdx (nx + nu + nz) q.H)).length
          + (part E nx nu (xuzIdx (nx + nu + nz) q.H)).length) (nx + nu))
        (fun i j => 2 * wRow q.H (part E 0 nx (xuzIdx (nx + nu + nz) q.H) ++ part E nx nu (xuzIdx (nx + nu + nz) q.H)
          ++ part E (nx + nu) nz (xuzIdx (nx + nu + nz) q.H)) (xuzIdx (nx + nu + nz) q.H) i j) yref, ?_,
    fun x u z => (hv x u z).trans (eqv x u z)⟩
  unfold detect
  rw [if_pos he, hz, if_neg (by decide), hq]
  dsimp only
  rw [hpa, hy]
  dsimp only
  rw [if_neg]
  · unfold store
    rw [if_neg hst]
  · intro hany
    obtain ⟨P, -, hP⟩ := List.any_eq_true.1 hany
    rw [llsVal_eq] at hP
    have := hv P.1 P.2.1 P.2.2
    rw [hpa] at this
    rw [this, eqv] at hP
    have := (of_decide_eq_true hP).2
    rw [sub_self, abs_zero, zero_div] at this
    linarith

/-- **C86** (other costs).  The cost is kept as an EXTERNAL one exactly if the expression fails the tests (affine in all
variables after two derivatives, no parameters); it is never raised on nor rewritten then. -/
theorem C86_external (E : Env K) (st : Stage) (nx nu nz : Nat) (e : Expr K) :
    detect E st nx nu nz e = .external ↔ e.tests = false := by
  have hst : ∀ l : LS K, store st nu nz l ≠ .external := by
    intro l h
    unfold store at h
    split at h
    · split at h
      · cases h
      · split at h <;> cases h
    · cases h
  constructor
  · intro h
    by_contra hc
    unfold detect at h
    rw [if_pos (by simpa using hc)] at h
    split at h
    · exact hst _ h
    · split at h
      · cases h
      · dsimp only at h
        split at h
        · cases h
        · split at h
          · cases h
          · exact hst _ h
  · intro h
    unfold detect
    rw [if_neg (by rw [h]; exact fun x => (by cases x))]

example : (⟨false, false, none⟩ : Expr ℚ).tests = false := rfl

/-- **C86** (zero cost).  An expression that is zero becomes a LINEAR_LS cost that is 0 everywhere. -/
theorem C86_zero (E : Env K) (st : Stage) (nx nu nz : Nat) (e : Expr K) (he : e.tests = true) (hz : e.isZero = true) :
    ∃ l, detect E st nx nu nz e = .linear l ∧ ∀ x u z, l.value nx nu nz x u z = 0 := by
  unfold detect
  rw [if_pos he, if_pos hz]
  have h0 : ∀ (l : LS K), l.ny = 0 → ∀ x u z, l.value nx nu nz x u z = 0 := by
    intro l hl x u z
    unfold LS.value wls
    rw [hl, sum_range_zero, mul_zero]
  unfold store
  split
  · rw [if_neg (fun x => (by cases x)), if_neg (fun x => (by cases x))]
    exact ⟨_, rfl, h0 _ rfl⟩
  · exact ⟨_, rfl, h0 _ rfl⟩

/-- **C86** (terminal stage).  An accepted terminal cost has no rows for inputs and algebraic variables. -/
theorem C86_terminal (E : Env K) (nx nu nz : Nat) (e : Expr K) (l : LS K) (h : detect E .terminal nx nu nz e = .linear l)
    (x u z u' z' : Nat → K) : l.value nx nu nz x u z = l.value nx nu nz x u' z' := by
  have hst : ∀ l₀ : LS K, store .terminal nu nz l₀ = .linear l → l.value nx nu nz x u z = l.value nx nu nz x u' z' := by
    intro l₀ h
    unfold store at h
    rw [if_pos rfl] at h
    split at h
    · cases h
    · split at h
      · cases h
      · cases h
        unfold LS.value
        simp only [zero_mul, sum_const_zero]
  unfold detect at h
  split at h
  · split at h
    · exact hst _ h
    · split at h
      · cases h
      · dsimp only at h
        split at h
        · cases h
        · split at h
          · cases h
          · exact hst _ h
  · cases h

/-! ### What does not hold -/

/-- systems of size 1 and 2 by Cramer's rule -/
def exSolve (ny : Nat) (W : Nat → Nat → ℚ) (r : Nat → ℚ) : Option (Nat → ℚ) :=
  if ny = 1 then (if W 0 0 = 0 then none else some fun _ => r 0 / W 0 0)
  else if ny = 2 then
    let d := W 0 0 * W 1 1 - W 0 1 * W 1 0
    if d = 0 then none
    else some fun i => if i = 0 then (r 0 * W 1 1 - W 0 1 * r 1) / d else (W 0 0 * r 1 - W 1 0 * r 0) / d
  else none

/-- one test point with values between 0 and 1 -/
def exEnv (order : List Nat → List Nat) : Env ℚ :=
  ⟨order, exSolve, [(fun j => 1 / (j + 2), fun _ => 1 / 2, fun _ => 1 / 2)], 1 / 10000000000000⟩

def isRaised : Res ℚ → Bool
  | .raised => true
  | _ => false

def exQuad (H : Nat → Nat → ℚ) (g : Nat → ℚ) (c : ℚ) : Expr ℚ := ⟨true, false, some ⟨H, g, c⟩⟩

/-- The documentation promises EXTERNAL where the reformulation is not possible; for `x² + 1`, `x² + u` and `(x + u)²` an
exception is raised. -/
theorem C86_fallback_false :
    isRaised (detect (exEnv id) .path 1 0 0 (exQuad (fun _ _ => 2) (fun _ => 0) 1)) = true ∧
    isRaised (detect (exEnv id) .path 1 1 0 (exQuad (fun a b => if a = 0 ∧ b = 0 then 2 else 0) (fun a => if a = 1 then 1 else 0) 0))
      = true ∧
    isRaised (detect (exEnv id) .path 1 1 0 (exQuad (fun _ _ => 2) (fun _ => 0) 0)) = true := by decide +kernel

/-- `x₁² + 2 x₈²` is a weighted squared distance, but if Python lists `{1, 8}` as `[8, 1]` (as CPython does) an exception is raised. -/
theorem C86_order_false :
    isRaised (detect (exEnv List.reverse) .path 9 0 0
      (exQuad (fun a b => if a = 1 ∧ b = 1 then 2 else if a = 8 ∧ b = 8 then 4 else 0) (fun _ => 0) 0)) = true ∧
    isRaised (detect (exEnv id) .path 9 0 0
      (exQuad (fun a b => if a = 1 ∧ b = 1 then 2 else if a = 8 ∧ b = 8 then 4 else 0) (fun _ => 0) 0)) = false := by decide +kernel

/-! ### The hypotheses are met -/

/-- value of a detected cost -/
def exVal (nx nu nz : Nat) (o : Res ℚ) (x u z : Nat → ℚ) : Option ℚ :=
  match o with
  | .linear l => some (l.value nx nu nz x u z)
  | _ => none

/-- `(x₁ - 3)² + (x₁ - 3)(u₀ - 1) + 2 (u₀ - 1)²` with the linear part `-13 x₁ - 7 u₀` and the constant 14: detected, and equal at
`x₁ = 5, u₀ = 2` -/
example : exVal 2 1 0 (detect (exEnv id) .path 2 1 0 (exQuad
      (fun a b => if a = 1 ∧ b = 1 then 2 else if a = 2 ∧ b = 2 then 4 else if (a = 1 ∧ b = 2) ∨ (a = 2 ∧ b = 1) then 1 else 0)
      (fun a => if a = 1 then -7 else if a = 2 then -7 else 0) 14)) (fun _ => 5) (fun _ => 2) (fun _ => 0) = some (4 + 2 + 2)
    ∧ (Quad.mk (K := ℚ)
      (fun a b => if a = 1 ∧ b = 1 then 2 else if a = 2 ∧ b = 2 then 4 else if (a = 1 ∧ b = 2) ∨ (a = 2 ∧ b = 1) then 1 else 0)
      (fun a => if a = 1 then -7 else if a = 2 then -7 else 0) 14).at 3 (stack 2 1 (fun _ => 5) (fun _ => 2) (fun _ => 0)) = 8 := by
  decide +kernel

/-- `½ · 2 (x - 3)²` is a squared distance -/
example : SquareOf (⟨fun _ _ => 2, fun _ => -6, 9⟩ : Quad ℚ) 1 fun _ => 3 := by
  intro w
  unfold Quad.at wls
  simp only [sum_range_one]
  ring

/-- there is a solver -/
example : ∃ solve : Nat → (Nat → Nat → ℚ) → (Nat → ℚ) → Option (Nat → ℚ), IsSolver solve := by
  classical
  refine ⟨fun ny W r => if h : ∃ y, Solves ny W r y then some h.choose else none, fun ny W r y h => ?_, fun ny W r h => ?_⟩
  · dsimp only at h
    split at h
    · rename_i hy; cases h; exact hy.choose_spec
    · cases h
  · have hex : ∃ y, Solves ny W r y := by
      let A : Matrix (Fin ny) (Fin ny) ℚ := fun i j => W i j
      have hinj : Function.Injective A.mulVec := by
        intro a b hab
        have := h (fun j => if hj : j < ny then a ⟨j, hj⟩ - b ⟨j, hj⟩ else 0) (by
          intro i hi
          have h1 := congrFun hab ⟨i, hi⟩
          unfold Matrix.mulVec dotProduct at h1
          rw [Finset.sum_range]
          have : ∀ j : Fin ny, W i j * (if hj : (j : Nat) < ny then a ⟨j, hj⟩ - b ⟨j, hj⟩ else 0) = A ⟨i, hi⟩ j * a j - A ⟨i, hi⟩ j * b j := by
            intro j
            rw [dif_pos j.2]
            show W i j * _ = W i j * _ - W i j * _
            ring
          rw [sum_congr rfl fun j _ => this j, sum_sub_distrib, h1, sub_self])
        funext i
        have := this i i.2
        rw [dif_pos i.2] at this
        linarith
      have hu : IsUnit A := Matrix.mulVec_injective_iff_isUnit.1 hinj
      obtain ⟨y, hy⟩ := (Matrix.mulVec_surjective_iff_isUnit.2 hu) fun i => r i
      refine ⟨fun j => if hj : j < ny then y ⟨j, hj⟩ else 0, fun i hi => ?_⟩
      have h1 := congrFun hy ⟨i, hi⟩
      unfold Matrix.mulVec dotProduct at h1
      rw [Finset.sum_range, ← h1]
      refine sum_congr rfl fun j _ => ?_
      dsimp only
      rw [dif_pos j.2]
    exact ⟨hex.choose, dif_pos hex⟩

/-- the Hessian of `(x - 3)²` is nonsingular -/
example : Nonsingular (⟨fun _ _ => 2, fun _ => -6, 9⟩ : Quad ℚ) 1 := by
  intro d h a ha _
  obtain rfl : a = 0 := by omega
  have := h 0 (by omega)
  rw [sum_range_one] at this
  linarith

/-- the solver of the examples solves -/
example (W : Nat → Nat → ℚ) (r y : Nat → ℚ) (h : exSolve 1 W r = some y) : Solves 1 W r y := by
  unfold exSolve at h
  rw [if_pos rfl] at h
  split at h
  · cases h
  · rename_i hn
    cases h
    intro i hi
    obtain rfl : i = 0 := by omega
    rw [sum_range_one]
    field_simp

/-- a terminal cost of an input is refused, one of a state accepted -/
example : isRaised (detect (exEnv id) .terminal 1 1 0 (exQuad (fun a b => if a = 1 ∧ b = 1 then 2 else 0) (fun _ => 0) 0)) = true
    ∧ exVal 1 1 0 (detect (exEnv id) .terminal 1 1 0 (exQuad (fun a b => if a = 0 ∧ b = 0 then 2 else 0) (fun _ => 0) 0))
      (fun _ => 3) (fun _ => 7) (fun _ => 7) = some 9 := by decide +kernel

end Acados.AutoCost
