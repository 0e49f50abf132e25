import Verif.Model.AutoCost
import Mathlib.Algebra.BigOperators.Ring.Finset
import Mathlib.Tactic.Ring
import Mathlib.Tactic.LinearCombination
import Mathlib.Tactic.Linarith
/-! Helper lemmas for `Verif/Props/AutoCost.lean` -/
namespace Acados.AutoCost
open Finset Acados.CostForm
variable {K : Type} [Field K] [LinearOrder K]

theorem sum_getD {M : Type} [AddCommMonoid M] (l : List Nat) (F : Nat → M) :
    ∑ i ∈ range l.length, F (l.getD i 0) = (l.map F).sum := by
  induction l with
  | nil => rfl
  | cons a l ih =>
    rw [List.length_cons, sum_range_succ', List.map_cons, List.sum_cons, add_comm]
    congr 1

theorem sum_filter {M : Type} [AddCommMonoid M] (n : Nat) (p : Nat → Bool) (F : Nat → M) :
    (((List.range n).filter p).map F).sum = ∑ a ∈ range n, if p a = true then F a else 0 := by
  induction n with
  | zero => rfl
  | succ n ih =>
    rw [List.range_succ, List.filter_append, List.map_append, List.sum_append, ih, sum_range_succ]
    congr 1
    by_cases h : p n = true
    · rw [if_pos h, List.filter_cons_of_pos h, List.filter_nil, List.map_singleton, List.sum_singleton]
    · rw [if_neg h, List.filter_cons_of_neg h, List.filter_nil]
      rfl

/-- variables with a nonzero row -/
theorem mem_xuzIdx (n : Nat) (H : Nat → Nat → K) (a : Nat) : a ∈ xuzIdx n H ↔ a < n ∧ ∃ b < n, H a b ≠ 0 := by
  unfold xuzIdx
  rw [List.mem_filter, List.mem_range, List.any_eq_true]
  simp only [List.mem_range, decide_eq_true_eq]

/-- a sum over the positions of `xuz_idx` of terms that vanish for zero rows -/
theorem sum_idx (n : Nat) (H : Nat → Nat → K) (F : Nat → K) (hF : ∀ a < n, (∀ b < n, H a b = 0) → F a = 0) :
    ∑ i ∈ range (xuzIdx n H).length, F ((xuzIdx n H).getD i 0) = ∑ a ∈ range n, F a := by
  rw [sum_getD]
  unfold xuzIdx
  rw [sum_filter]
  refine sum_congr rfl fun a ha => ?_
  rw [mem_range] at ha
  by_cases h : ((List.range n).any fun b => decide (H a b ≠ 0)) = true
  · rw [if_pos h]
  · rw [if_neg h]
    refine (hF a ha fun b hb => ?_).symm
    by_contra hn
    exact h (List.any_eq_true.2 ⟨b, List.mem_range.2 hb, decide_eq_true hn⟩)

theorem filter_mem_xuz (n lo m : Nat) (H : Nat → Nat → K) (h : lo + m ≤ n) :
    ((List.range' lo m).filter fun a => decide (a ∈ xuzIdx n H))
      = (List.range' lo m).filter fun a => (List.range n).any fun b => decide (H a b ≠ 0) := by
  refine List.filter_congr fun a ha => ?_
  have := List.mem_range'_1.1 ha
  rw [Bool.eq_iff_iff, decide_eq_true_eq, mem_xuzIdx, List.any_eq_true]
  simp only [List.mem_range, decide_eq_true_eq]
  exact ⟨fun x => x.2, fun x => ⟨by omega, x⟩⟩

/-- listed in ascending order, the three parts are `xuz_idx` -/
theorem parts_append (E : Env K) (hE : ∀ l, E.order l = l) (nx nu nz : Nat) (H : Nat → Nat → K) :
    part E 0 nx (xuzIdx (nx + nu + nz) H) ++ part E nx nu (xuzIdx (nx + nu + nz) H)
      ++ part E (nx + nu) nz (xuzIdx (nx + nu + nz) H) = xuzIdx (nx + nu + nz) H := by
  unfold part
  rw [hE, hE, hE, filter_mem_xuz _ _ _ _ (by omega), filter_mem_xuz _ _ _ _ (by omega), filter_mem_xuz _ _ _ _ (by omega),
    ← List.filter_append, ← List.filter_append]
  unfold xuzIdx
  congr 1
  rw [List.range_eq_range', ← List.range'_append_1, ← List.range'_append_1, Nat.zero_add, Nat.zero_add]

theorem part_mem (E : Env K) (hE : ∀ l, E.order l = l) (lo m : Nat) (idx : List Nat) (a : Nat) (h : a ∈ part E lo m idx) :
    lo ≤ a ∧ a < lo + m ∧ a ∈ idx := by
  unfold part at h
  rw [hE, List.mem_filter] at h
  have := List.mem_range'_1.1 h.1
  exact ⟨this.1, this.2, of_decide_eq_true h.2⟩

/-- product of a unit row with a vector -/
theorem unitRow_sum (l : List Nat) (off lo m i : Nat) (h : Nat → K) (hl : ∀ a ∈ l, lo ≤ a ∧ a < lo + m) :
    ∑ j ∈ range m, unitRow l off lo i j * h j
      = if off ≤ i ∧ i - off < l.length then h (l.getD (i - off) 0 - lo) else 0 := by
  unfold unitRow
  by_cases hi : off ≤ i ∧ i - off < l.length
  · rw [if_pos hi]
    have e : l[i - off]? = some (l.getD (i - off) 0) := by
      rw [List.getD_eq_getElem?_getD, List.getElem?_eq_getElem hi.2]; rfl
    have hm := hl (l.getD (i - off) 0) (List.mem_of_getElem? e)
    rw [sum_eq_single (l.getD (i - off) 0 - lo)]
    · rw [if_pos ⟨hi.1, by rw [e]; congr 1; omega⟩, one_mul]
    · intro j _ hj
      rw [if_neg, zero_mul]
      rintro ⟨-, q⟩
      rw [e] at q
      have := Option.some.inj q
      omega
    · intro hn
      rw [mem_range] at hn
      omega
  · rw [if_neg hi]
    refine sum_eq_zero fun j _ => ?_
    rw [if_neg, zero_mul]
    rintro ⟨q1, q2⟩
    refine hi ⟨q1, ?_⟩
    by_contra hn
    rw [List.getElem?_eq_none (by omega)] at q2
    cases q2

/-- the three products give the variables listed in `xuz_idx` -/
theorem rows_val (E : Env K) (hE : ∀ l, E.order l = l) (nx nu nz : Nat) (H : Nat → Nat → K) (x u z : Nat → K) (i : Nat)
    (hi : i < (xuzIdx (nx + nu + nz) H).length) :
    (∑ j ∈ range nx, unitRow (part E 0 nx (xuzIdx (nx + nu + nz) H)) 0 0 i j * x j)
      + (∑ j ∈ range nu, unitRow (part E nx nu (xuzIdx (nx + nu + nz) H)) (part E 0 nx (xuzIdx (nx + nu + nz) H)).length nx i j * u j)
      + (∑ j ∈ range nz, unitRow (part E (nx + nu) nz (xuzIdx (nx + nu + nz) H))
          ((part E 0 nx (xuzIdx (nx + nu + nz) H)).length + (part E nx nu (xuzIdx (nx + nu + nz) H)).length) (nx + nu) i j * z j)
      = stack nx nu x u z ((xuzIdx (nx + nu + nz) H).getD i 0) := by
  have hc := parts_append E hE nx nu nz H
  have m1 := part_mem E hE 0 nx (xuzIdx (nx + nu + nz) H)
  have m2 := part_mem E hE nx nu (xuzIdx (nx + nu + nz) H)
  have m3 := part_mem E hE (nx + nu) nz (xuzIdx (nx + nu + nz) H)
  generalize part E 0 nx (xuzIdx (nx + nu + nz) H) = xs at *
  generalize part E nx nu (xuzIdx (nx + nu + nz) H) = us at *
  generalize part E (nx + nu) nz (xuzIdx (nx + nu + nz) H) = zs at *
  have mem : ∀ (l : List Nat) (k : Nat), k < l.length → l.getD k 0 ∈ l := by
    intro l k hk
    rw [List.getD_eq_getElem?_getD, List.getElem?_eq_getElem hk]
    exact List.getElem_mem hk
  rw [unitRow_sum xs 0 0 nx i x fun a ha => ⟨(m1 a ha).1, (m1 a ha).2.1⟩,
    unitRow_sum us _ nx nu i u fun a ha => ⟨(m2 a ha).1, (m2 a ha).2.1⟩,
    unitRow_sum zs _ (nx + nu) nz i z fun a ha => ⟨(m3 a ha).1, (m3 a ha).2.1⟩, ← hc]
  rw [← hc, List.length_append, List.length_append] at hi
  simp only [List.getD_eq_getElem?_getD]
  simp only [List.getD_eq_getElem?_getD] at mem
  unfold stack
  by_cases h1 : i < xs.length
  · rw [if_pos ⟨Nat.zero_le _, by omega⟩, if_neg (by omega), if_neg (by omega),
      List.getElem?_append_left (by rw [List.length_append]; omega), List.getElem?_append_left h1]
    have := m1 _ (mem xs i h1)
    rw [if_pos (by omega), Nat.sub_zero, Nat.sub_zero, add_zero, add_zero]
  · by_cases h2 : i - xs.length < us.length
    · rw [if_neg (by omega), if_pos ⟨by omega, h2⟩, if_neg (by omega),
        List.getElem?_append_left (by rw [List.length_append]; omega), List.getElem?_append_right (by omega)]
      have := m2 _ (mem us _ h2)
      rw [if_neg (by omega), if_pos (by omega), zero_add, add_zero]
    · rw [if_neg (by omega), if_neg (by omega), if_pos ⟨by omega, by omega⟩,
        List.getElem?_append_right (by rw [List.length_append]; omega), List.length_append]
      have := m3 _ (mem zs (i - (xs.length + us.length)) (by omega))
      rw [if_neg (by omega), if_neg (by omega), zero_add, zero_add]
      congr 1
      omega

theorem xuz_nodup (n : Nat) (H : Nat → Nat → K) : (xuzIdx n H).Nodup := List.Nodup.filter _ List.nodup_range

/-- the reference as a function of the variable -/
def refOf (n : Nat) (H : Nat → Nat → K) (yref : Nat → K) (a : Nat) : K := yref ((xuzIdx n H).idxOf a)

theorem refOf_pos (n : Nat) (H : Nat → Nat → K) (yref : Nat → K) (i : Nat) (hi : i < (xuzIdx n H).length) :
    refOf n H yref ((xuzIdx n H).getD i 0) = yref i := by
  unfold refOf
  congr 1
  rw [List.getD_eq_getElem?_getD, List.getElem?_eq_getElem hi]
  exact List.Nodup.idxOf_getElem (xuz_nodup n H) i hi

/-- the reformulated cost in terms of all variables -/
theorem ls_full [IsStrictOrderedRing K] (n : Nat) (H : Nat → Nat → K) (hs : ∀ a b, H a b = H b a) (yref w : Nat → K) :
    wls (xuzIdx n H).length (fun i j => 2 * wRow H (xuzIdx n H) (xuzIdx n H) i j) (fun i => w ((xuzIdx n H).getD i 0) - yref i)
      = wls n H fun a => w a - refOf n H yref a := by
  unfold wls wRow
  congr 1
  have e1 : ∀ i ∈ range (xuzIdx n H).length, (∑ j ∈ range (xuzIdx n H).length,
      (w ((xuzIdx n H).getD i 0) - yref i) * (2 * (H ((xuzIdx n H).getD i 0) ((xuzIdx n H).getD j 0) / 2))
        * (w ((xuzIdx n H).getD j 0) - yref j))
      = (fun a => ∑ b ∈ range n, (w a - refOf n H yref a) * H a b * (w b - refOf n H yref b)) ((xuzIdx n H).getD i 0) := by
    intro i hi
    rw [mem_range] at hi
    dsimp only
    rw [← sum_idx n H (fun b => (w ((xuzIdx n H).getD i 0) - refOf n H yref ((xuzIdx n H).getD i 0)) * H ((xuzIdx n H).getD i 0) b
      * (w b - refOf n H yref b))]
    · refine sum_congr rfl fun j hj => ?_
      rw [mem_range] at hj
      rw [refOf_pos n H yref i hi, refOf_pos n H yref j hj]
      rw [mul_div_cancel₀ _ (two_ne_zero : (2 : K) ≠ 0)]
    · intro b hb hz
      have : (xuzIdx n H).getD i 0 < n := by
        refine ((mem_xuzIdx n H _).1 ?_).1
        rw [List.getD_eq_getElem?_getD, List.getElem?_eq_getElem hi]
        exact List.getElem_mem hi
      rw [hs, hz _ this, mul_zero, zero_mul]
  rw [sum_congr rfl e1]
  refine sum_idx n H (fun a => ∑ b ∈ range n, (w a - refOf n H yref a) * H a b * (w b - refOf n H yref b)) ?_
  intro a ha hz
  refine sum_eq_zero fun b hb => ?_
  rw [hz b (mem_range.1 hb), mul_zero, zero_mul]

/-- the linear system in terms of all variables -/
theorem solve_full [IsStrictOrderedRing K] (n : Nat) (q : Quad K) (hs : ∀ a b, q.H a b = q.H b a) (yref : Nat → K)
    (h : Solves (xuzIdx n q.H).length (wRow q.H (xuzIdx n q.H) (xuzIdx n q.H)) (fun i => -(1 / 2) * q.g ((xuzIdx n q.H).getD i 0)) yref)
    (a : Nat) (ha : a ∈ xuzIdx n q.H) : ∑ b ∈ range n, q.H a b * refOf n q.H yref b = -q.g a := by
  obtain ⟨i, hi, e⟩ := List.getElem_of_mem ha
  have e' : (xuzIdx n q.H).getD i 0 = a := by
    rw [List.getD_eq_getElem?_getD, List.getElem?_eq_getElem hi, e]; rfl
  have han := ((mem_xuzIdx n q.H a).1 ha).1
  have := h i hi
  dsimp only at this
  rw [e'] at this
  have e2 : ∑ j ∈ range (xuzIdx n q.H).length, wRow q.H (xuzIdx n q.H) (xuzIdx n q.H) i j * yref j
      = ∑ j ∈ range (xuzIdx n q.H).length, (fun b => q.H a b / 2 * refOf n q.H yref b) ((xuzIdx n q.H).getD j 0) := by
    refine sum_congr rfl fun j hj => ?_
    dsimp only
    rw [refOf_pos n q.H yref j (mem_range.1 hj)]
    unfold wRow
    rw [e']
  rw [e2, sum_idx n q.H (fun b => q.H a b / 2 * refOf n q.H yref b)] at this
  · have e3 : ∑ b ∈ range n, q.H a b / 2 * refOf n q.H yref b = 1 / 2 * ∑ b ∈ range n, q.H a b * refOf n q.H yref b := by
      rw [mul_sum]
      refine sum_congr rfl fun b _ => ?_
      ring
    rw [e3] at this
    linear_combination 2 * this
  · intro b hb hz
    rw [hs, hz a han]
    ring

/-- expansion of the squared distance -/
theorem wls_sub [IsStrictOrderedRing K] (n : Nat) (H : Nat → Nat → K) (hs : ∀ a b, H a b = H b a) (w r : Nat → K) :
    wls n H (fun a => w a - r a) = wls n H w - (∑ a ∈ range n, w a * ∑ b ∈ range n, H a b * r b) + wls n H r := by
  unfold wls
  have sw : ∑ a ∈ range n, ∑ b ∈ range n, r a * H a b * w b = ∑ a ∈ range n, w a * ∑ b ∈ range n, H a b * r b := by
    rw [sum_comm]
    refine sum_congr rfl fun b _ => ?_
    rw [mul_sum]
    refine sum_congr rfl fun a _ => ?_
    rw [hs a b]; ring
  have e : ∑ a ∈ range n, ∑ b ∈ range n, (w a - r a) * H a b * (w b - r b)
      = (∑ a ∈ range n, ∑ b ∈ range n, w a * H a b * w b) - (∑ a ∈ range n, w a * ∑ b ∈ range n, H a b * r b)
        - (∑ a ∈ range n, ∑ b ∈ range n, r a * H a b * w b) + ∑ a ∈ range n, ∑ b ∈ range n, r a * H a b * r b := by
    rw [← sum_sub_distrib, ← sum_sub_distrib, ← sum_add_distrib]
    refine sum_congr rfl fun a _ => ?_
    rw [mul_sum, ← sum_sub_distrib, ← sum_sub_distrib, ← sum_add_distrib]
    refine sum_congr rfl fun b _ => ?_
    ring
  rw [e, sw]
  ring

end Acados.AutoCost
