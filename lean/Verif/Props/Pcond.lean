import Verif.Model.Pcond
import Mathlib.Algebra.BigOperators.Intervals
import Mathlib.Algebra.BigOperators.Group.Finset.Piecewise
import Mathlib.Algebra.Order.BigOperators.Group.Finset
import Mathlib.Tactic.Linarith
import Mathlib.Tactic.Ring
/-!
# Partial condensing block sizes (C49)
-/
namespace Acados.Pcond
open Finset

theorem copyTo_eq (n : Nat) (src dst : Nat → Int) (i : Nat) :
    copyTo n src dst i = if i < n then src i else dst i := by
  unfold copyTo
  induction n with
  | zero => simp
  | succ n ih =>
    rw [List.range_succ, List.foldl_append, List.foldl_cons, List.foldl_nil]
    by_cases h : i = n
    · subst h; rw [Function.update_self, if_pos (by omega)]
    · rw [Function.update_of_ne h, ih]
      by_cases h' : i < n
      · rw [if_pos h', if_pos (by omega)]
      · rw [if_neg h', if_neg (by omega)]

theorem total_eq (n : Nat) (b : Nat → Int) : total n b = ∑ i ∈ range n, b i := by
  unfold total
  induction n with
  | zero => simp
  | succ n ih => rw [List.range_succ, List.foldl_append, ih, List.foldl_cons, List.foldl_nil, sum_range_succ]

/-! ## Default sizes -/

/-- The default block sizes cover the horizon: they sum to `N`, the last one is zero. -/
theorem C49_default_sum (N N2 : Nat) (h : 0 < N2) :
    ∑ i ∈ range (N2 + 1), hpipmBlock N N2 i = N ∧ hpipmBlock N N2 N2 = 0 := by
  have hmod : N - N2 * (N / N2) = N % N2 := by have := Nat.div_add_mod N N2; omega
  have hlt := Nat.mod_lt N h
  have e : ∀ i, hpipmBlock N N2 i = (if i < N % N2 then 1 else 0) + if i < N2 then ((N / N2 : Nat) : Int) else 0 := by
    intro i
    unfold hpipmBlock
    rw [hmod]
    by_cases h1 : i < N % N2
    · rw [if_pos h1, if_pos h1, if_pos (by omega)]; ring
    · rw [if_neg h1, if_neg h1, zero_add]
  have cnt1 : ∀ a n : Nat, a ≤ n → ∀ c : Int, ∑ i ∈ range n, (if i < a then c else 0) = a * c := by
    intro a n han c
    rw [← sum_filter, sum_const, nsmul_eq_mul]
    congr 2
    have : (range n).filter (fun i => i < a) = range a := by
      ext i; simp only [mem_filter, mem_range]; omega
    rw [this, card_range]
  constructor
  · rw [sum_congr rfl fun i _ => e i, sum_add_distrib, cnt1 _ _ (by omega), cnt1 _ _ (by omega)]
    have := Nat.div_add_mod N N2
    have h2 : (N2 : Int) * ((N / N2 : Nat) : Int) + ((N % N2 : Nat) : Int) = N := by exact_mod_cast this
    linarith
  · rw [e, if_neg (by omega), if_neg (by omega)]; rfl

/-- Any two of the blocks differ by at most one stage; none is empty if the condensed horizon is not longer than
the original one; each is a single stage if both are equal. -/
theorem C49_default_even (N N2 : Nat) (i j : Nat) (hi : i < N2) (hj : j < N2) :
    hpipmBlock N N2 i ≤ hpipmBlock N N2 j + 1 ∧ (N2 ≤ N → 1 ≤ hpipmBlock N N2 i) ∧
      (N2 = N → hpipmBlock N N2 i = 1) := by
  unfold hpipmBlock
  have hd : N2 ≤ N → 1 ≤ N / N2 := fun h => (Nat.one_le_div_iff (by omega)).mpr h
  refine ⟨?_, fun h => ?_, fun h => ?_⟩
  · rw [if_pos hi, if_pos hj]; split <;> split <;> omega
  · have := hd h
    rw [if_pos hi]; split <;> omega
  · subst h
    have h1 : N2 / N2 = 1 := Nat.div_self (by omega)
    rw [h1, if_neg (by omega), if_pos hi]; rfl

example : (List.range 5).map (hpipmBlock 10 4) = [3, 3, 2, 2, 0] := by decide

/-! ## Sizes given by the user -/

theorem run_append (s : St) (a b : List Op) : runOps s (a ++ b) = (runOps s a).bind fun s' => runOps s' b := by
  induction a generalizing s with
  | nil => rfl
  | cons o a ih =>
    simp only [List.cons_append, runOps]
    cases step s o with
    | none => rfl
    | some s' => simp only [Option.bind_some]; exact ih s'

theorem step_N {s s' : St} {o : Op} (h : step s o = some s') : s'.N = s.N ∧ s.maxIdx ≤ s'.maxIdx := by
  cases o <;> simp only [step] at h
  case create =>
    split at h
    · split at h
      · exact (nomatch h)
      · simp only [Option.some.injEq] at h; subst h; exact ⟨rfl, le_max_left _ _⟩
    · simp only [Option.some.injEq] at h; subst h; exact ⟨rfl, le_max_left _ _⟩
  case solve =>
    split at h
    · simp only [Option.some.injEq] at h; subst h; exact ⟨rfl, le_rfl⟩
    · exact (nomatch h)
  case setBlock => simp only [Option.some.injEq] at h; subst h; exact ⟨rfl, le_max_left _ _⟩
  all_goals
    simp only [Option.some.injEq] at h; subst h; exact ⟨rfl, le_rfl⟩

theorem run_N (os : List Op) : ∀ {s s' : St}, runOps s os = some s' → s'.N = s.N ∧ s.maxIdx ≤ s'.maxIdx := by
  induction os with
  | nil => intro s s' h; simp only [runOps, Option.some.injEq] at h; subst h; exact ⟨rfl, le_rfl⟩
  | cons o os ih =>
    intro s s' h
    rw [runOps] at h
    cases h1 : step s o with
    | none => rw [h1] at h; exact (nomatch h)
    | some s1 =>
      rw [h1] at h
      have a := step_N h1
      have b := ih h
      exact ⟨b.1.trans a.1, a.2.trans b.2⟩

/-- Whatever was written before: if creating the memory succeeds with block sizes given by the user, the block
sizes handed to the condensing routine are the stored ones and sum to the horizon. -/
theorem C49_user_blocks_checked (N : Nat) (blk0 : Nat → Int) (os : List Op) (s s' : St)
    (h : runOps (init N blk0) os = some s) (hw : s.was = true) (hc : step s .create = some s') :
    ∑ i ∈ range (cnt s.n2), s'.use i = N ∧ (∀ i, i < cnt s.n2 → s'.use i = s.blk i) ∧ s'.pN = s.n2 := by
  have hN : s.N = N := (run_N os h).1
  simp only [step, hw, if_true] at hc
  split at hc
  · exact (nomatch hc)
  · rename_i h1
    simp only [Option.some.injEq] at hc
    subst hc
    rw [not_not, total_eq, hN] at h1
    exact ⟨h1, fun i hi => (copyTo_eq _ _ _ i).trans (if_pos hi), rfl⟩

/-- Creation is refused exactly when the stored block sizes do not sum to the horizon. -/
theorem C49_refused_iff (s : St) (hw : s.was = true) :
    step s .create = none ↔ ∑ i ∈ range (cnt s.n2), s.blk i ≠ s.N := by
  simp only [step, hw, if_true]
  have e : total (cnt s.n2) (copyTo (cnt s.n2) s.blk s.use) = ∑ i ∈ range (cnt s.n2), s.blk i := by
    rw [total_eq]
    exact sum_congr rfl fun i hi => by rw [copyTo_eq, if_pos (mem_range.mp hi)]
  rw [e]
  split
  · exact ⟨fun _ => ‹_›, fun _ => rfl⟩
  · rename_i h
    exact ⟨fun h' => (nomatch h'), fun h' => absurd h' h⟩

/-- Without block sizes from the user, the default ones are used. -/
theorem C49_default_used (s s' : St) (hw : s.was = false) (h : step s .create = some s') :
    s'.use = hpipmBlock s.N s.n2.toNat ∧ s'.pN = s.n2 := by
  simp only [step, hw, Bool.false_eq_true, if_false, Option.some.injEq] at h
  subst h; exact ⟨rfl, rfl⟩

/-- operations that change neither the condensed horizon nor the block sizes -/
def Op.other : Op → Prop
  | .setN _ | .setBlock _ => False
  | _ => True

/-- The block sizes used are those the user wrote last, if the condensed horizon was set before and not changed
afterwards; they are accepted exactly if they sum to the horizon. -/
theorem C49_user_blocks_used_partial (N : Nat) (blk0 : Nat → Int) (os rest : List Op) (v : Nat → Int) (s s' : St)
    (hr : ∀ o ∈ rest, o.other) (h : runOps (init N blk0) (os ++ .setBlock v :: rest) = some s)
    (hc : step s .create = some s') :
    (∀ i, i < cnt s.n2 → s'.use i = v i) ∧ ∑ i ∈ range (cnt s.n2), v i = N := by
  rw [run_append] at h
  cases h1 : runOps (init N blk0) os with
  | none => rw [h1] at h; exact (nomatch h)
  | some s1 =>
    rw [h1] at h
    simp only [Option.bind_some, runOps, step] at h
    have hN1 := (run_N os h1).1
    -- the other operations keep horizon, sizes and flag
    have keep : ∀ (rest : List Op), (∀ o ∈ rest, o.other) → ∀ t : St, t.was = true → ∀ s, runOps t rest = some s →
        s.n2 = t.n2 ∧ s.was = true ∧ s.blk = t.blk ∧ s.N = t.N := by
      intro rest
      induction rest with
      | nil => intro _ t ht s h; simp only [runOps, Option.some.injEq] at h; subst h; exact ⟨rfl, ht, rfl, rfl⟩
      | cons o rest ih =>
        intro hr t ht s h
        rw [runOps] at h
        cases h2 : step t o with
        | none => rw [h2] at h; exact (nomatch h)
        | some t1 =>
          rw [h2] at h
          have hk : t1.n2 = t.n2 ∧ t1.was = true ∧ t1.blk = t.blk ∧ t1.N = t.N := by
            have ho := hr o List.mem_cons_self
            cases o with
            | setN v => exact ho.elim
            | setBlock v => exact ho.elim
            | setNbkp v => simp only [step, Option.some.injEq] at h2; subst h2; exact ⟨rfl, ht, rfl, rfl⟩
            | update => simp only [step, Option.some.injEq] at h2; subst h2; exact ⟨rfl, ht, rfl, rfl⟩
            | create =>
              simp only [step, ht, if_true] at h2
              split at h2
              · exact (nomatch h2)
              · simp only [Option.some.injEq] at h2; subst h2; exact ⟨rfl, rfl, rfl, rfl⟩
            | solve =>
              simp only [step] at h2
              split at h2
              · simp only [Option.some.injEq] at h2; subst h2; exact ⟨rfl, ht, rfl, rfl⟩
              · exact (nomatch h2)
          have := ih (fun o ho => hr o (List.mem_cons_of_mem _ ho)) t1 hk.2.1 s h
          exact ⟨this.1.trans hk.1, this.2.1, this.2.2.1.trans hk.2.2.1, this.2.2.2.trans hk.2.2.2⟩
    obtain ⟨a, b, c, d⟩ := keep rest hr _ rfl s h
    simp only at a c d
    simp only [step, b, if_true] at hc
    split at hc
    · exact (nomatch hc)
    · rename_i hsum
      simp only [Option.some.injEq] at hc
      subst hc
      have use : ∀ i, i < cnt s.n2 → copyTo (cnt s.n2) s.blk s.use i = v i := by
        intro i hi
        rw [copyTo_eq, if_pos hi, c, copyTo_eq, if_pos (by rw [← a]; exact hi)]
      refine ⟨use, ?_⟩
      rw [not_not, total_eq, d, hN1] at hsum
      rw [← sum_congr rfl fun i hi => use i (mem_range.mp hi)]
      exact hsum

/-- block sizes from a list -/
def ofList (l : List Int) : Nat → Int := fun i => l.getD i 0

example : ∃ s s', runOps (init 10 fun _ => 0) ([.setN 3] ++ .setBlock (ofList [4, 4, 2, 0]) :: [.update]) = some s ∧
    step s .create = some s' ∧ s'.pN = 3 ∧ (List.range 4).map s'.use = [4, 4, 2, 0] :=
  ⟨_, _, rfl, rfl, rfl, by decide⟩

/-- If the condensed horizon is raised after the block sizes were written, entries the user never gave are
used (here the memory happened to hold a 7), and the check cannot notice. -/
theorem C49_order_counterexample : ∃ (blk0 v : Nat → Int) (s s' : St),
    runOps (init 10 blk0) [.setN 1, .setBlock v, .setN 2, .update] = some s ∧ step s .create = some s' ∧
    s'.use 2 = 7 ∧ v 2 = 0 ∧ ∑ i ∈ range 3, v i ≠ 10 :=
  ⟨fun _ => 7, ofList [2, 1, 0], _, _, rfl, rfl, by decide, by decide, by decide⟩

/-- Negative block sizes pass the check. -/
theorem C49_negative_block_counterexample : ∃ (s s' : St),
    runOps (init 10 fun _ => 0) [.setN 2, .setBlock (ofList [12, -2, 0]), .update] = some s ∧
    step s .create = some s' ∧ s'.use 1 = -2 :=
  ⟨_, _, rfl, rfl, by decide⟩

/-! ## Array bounds -/

/-- all values written to the condensed horizon -/
def Op.small (N : Nat) : Op → Prop
  | .setN v => v ≤ N
  | _ => True

/-- The block size arrays have `N + 1` entries.  They are respected by every history in which the condensed
horizon is never set to more than `N`. -/
theorem C49_in_bounds_partial (N : Nat) (blk0 : Nat → Int) (os : List Op) (s : St) (hs : ∀ o ∈ os, o.small N)
    (h : runOps (init N blk0) os = some s) : s.maxIdx = N + 1 := by
  have key : ∀ os : List Op, (∀ o ∈ os, o.small N) → ∀ t : St, t.n2 ≤ N → t.maxIdx = N + 1 → ∀ s,
      runOps t os = some s → s.maxIdx = N + 1 := by
    intro os
    induction os with
    | nil => intro _ t _ h1 s h; simp only [runOps, Option.some.injEq] at h; subst h; exact h1
    | cons o os ih =>
      intro hs t h0 h1 s h
      rw [runOps] at h
      cases h2 : step t o with
      | none => rw [h2] at h; exact (nomatch h)
      | some t1 =>
        rw [h2] at h
        have hcnt : cnt t.n2 ≤ N + 1 := by unfold cnt; omega
        have hk : t1.n2 ≤ N ∧ t1.maxIdx = N + 1 := by
          have ho := hs o List.mem_cons_self
          cases o with
          | setN v => simp only [step, Option.some.injEq] at h2; subst h2; exact ⟨ho, h1⟩
          | setBlock v =>
            simp only [step, Option.some.injEq] at h2; subst h2
            exact ⟨h0, by simp only [h1]; omega⟩
          | setNbkp v => simp only [step, Option.some.injEq] at h2; subst h2; exact ⟨h0, h1⟩
          | update => simp only [step, Option.some.injEq] at h2; subst h2; exact ⟨h0, h1⟩
          | create =>
            simp only [step] at h2
            split at h2
            · split at h2
              · exact (nomatch h2)
              · simp only [Option.some.injEq] at h2; subst h2; exact ⟨h0, by simp only [h1]; omega⟩
            · simp only [Option.some.injEq] at h2; subst h2; exact ⟨h0, by simp only [h1]; omega⟩
          | solve =>
            simp only [step] at h2
            split at h2
            · simp only [Option.some.injEq] at h2; subst h2; exact ⟨h0, h1⟩
            · exact (nomatch h2)
        exact ih (fun o ho => hs o (List.mem_cons_of_mem _ ho)) t1 hk.1 hk.2 s h
  exact key os hs _ le_rfl rfl s h

/-- A condensed horizon longer than the original one is not refused: creating the memory writes behind the
block size array, for every such pair. -/
theorem C49_long_condensed_horizon_overflows (N : Nat) (blk0 : Nat → Int) (v : Int) (hv : N < v) :
    ∃ s, runOps (init N blk0) [.setN v, .update, .create, .solve] = some s ∧ N + 1 < s.maxIdx := by
  refine ⟨{ N := N, n2 := v, n2bkp := v, blk := blk0, was := false, use := hpipmBlock N v.toNat, pN := v,
            memN := some v, maxIdx := max (N + 1) (cnt v) }, ?_, ?_⟩
  · simp only [runOps, step, init, Option.bind_some, Bool.false_eq_true, if_false, if_true]
  · simp only [cnt]
    omega

/-! ## Changing the horizon after creation -/

/-- Without `opts_update`, a solve after a change of the condensed horizon is stopped by an assertion. -/
theorem C49_change_detected (s : St) (v : Int) (hv : v ≠ s.n2bkp) : runOps s [.setN v, .solve] = none := by
  simp only [runOps, step, Option.bind_some, if_neg hv, Option.bind_none]

/-- With `opts_update` it is not: the solve runs on memory created for another condensed horizon. -/
theorem C49_change_undetected : ∃ s, runOps (init 10 fun _ => 0) [.setN 2, .update, .create, .setN 5, .update, .solve] =
    some s ∧ s.memN = some 2 ∧ s.n2 = 5 ∧ s.pN = 5 :=
  ⟨_, rfl, rfl, rfl, rfl⟩

end Acados.Pcond
