import Verif.Model.GenSolver
import Mathlib.Data.List.Basic
import Mathlib.Data.List.Induction
import Mathlib.Tactic.Common
import Mathlib.Tactic.Ring
import Mathlib.Order.Basic
import Mathlib.Tactic.SplitIfs
/-!
# Lemmas about the generated solver
-/
namespace Acados.GenSolver
variable {K : Type}

section
variable [Zero K] [DecidableEq K]

theorem inner_fill (n o : Nat) (v : Nat → K) (b : Nat → K) (a : Nat) :
    (List.range n).foldl (fun (b : Nat → K) i => if v i ≠ 0 then Function.update b (o + i) (v i) else b) b a
      = if o ≤ a ∧ a < o + n ∧ v (a - o) ≠ 0 then v (a - o) else b a := by
  induction n with
  | zero => simp; intro h1 h2; omega
  | succ n ih =>
    rw [List.range_succ, List.foldl_append]
    simp only [List.foldl_cons, List.foldl_nil]
    by_cases ha : a = o + n
    · subst ha
      have e : o + n - o = n := by omega
      by_cases hv : v n = 0
      · rw [if_neg (by simpa using hv), ih, e]
        simp [hv]
      · rw [if_pos hv, Function.update_self, e, if_pos ⟨by omega, by omega, hv⟩]
    · have : (if v n ≠ 0 then Function.update ((List.range n).foldl
          (fun (b : Nat → K) i => if v i ≠ 0 then Function.update b (o + i) (v i) else b) b) (o + n) (v n)
          else (List.range n).foldl (fun (b : Nat → K) i => if v i ≠ 0 then Function.update b (o + i) (v i) else b) b) a
          = (List.range n).foldl (fun (b : Nat → K) i => if v i ≠ 0 then Function.update b (o + i) (v i) else b) b a := by
        split
        · rw [Function.update_of_ne ha]
        · rfl
      rw [this, ih]
      have e : (o ≤ a ∧ a < o + n ∧ v (a - o) ≠ 0) ↔ (o ≤ a ∧ a < o + (n + 1) ∧ v (a - o) ≠ 0) := by
        constructor
        · rintro ⟨h1, h2, h3⟩; exact ⟨h1, by omega, h3⟩
        · rintro ⟨h1, h2, h3⟩; exact ⟨h1, by omega, h3⟩
      by_cases hc : o ≤ a ∧ a < o + n ∧ v (a - o) ≠ 0
      · rw [if_pos hc, if_pos (e.1 hc)]
      · rw [if_neg hc, if_neg (fun h => hc (e.2 h))]

theorem fillParts_snoc (n : Nat) (vs : List (Nat → K)) (v : Nat → K) :
    fillParts n (vs ++ [v]) = (List.range n).foldl (fun (b : Nat → K) i =>
      if v i ≠ 0 then Function.update b (vs.length * n + i) (v i) else b) (fillParts n vs) := by
  unfold fillParts
  rw [List.zipIdx_append, List.foldl_append]
  simp

theorem fillParts_eq (n : Nat) (vs : List (Nat → K)) (q i : Nat) (hi : i < n) :
    fillParts n vs (q * n + i) = if h : q < vs.length then vs[q] i else 0 := by
  induction vs using List.reverseRecOn with
  | nil => simp [fillParts]
  | append_singleton vs v ih =>
    rw [fillParts_snoc, inner_fill]
    rcases lt_trichotomy q vs.length with h | h | h
    · have h1 : ¬ (vs.length * n ≤ q * n + i) := by
        have : (q + 1) * n ≤ vs.length * n := Nat.mul_le_mul_right n h
        have e : (q + 1) * n = q * n + n := by ring
        omega
      rw [if_neg (fun hc => h1 hc.1), ih, dif_pos h, dif_pos (by simp; omega), List.getElem_append_left h]
    · subst h
      have e : vs.length * n + i - vs.length * n = i := by omega
      rw [e, ih, dif_neg (by simp), dif_pos (by simp)]
      have e2 : (vs ++ [v])[vs.length]'(by simp) = v := by simp
      rw [e2]
      by_cases hv : v i = 0
      · simp [hv]
      · rw [if_pos ⟨by omega, by omega, hv⟩]
    · have h1 : ¬ (q * n + i < vs.length * n + n) := by
        have : (vs.length + 1) * n ≤ q * n := Nat.mul_le_mul_right n h
        have e : (vs.length + 1) * n = vs.length * n + n := by ring
        omega
      rw [if_neg (fun hc => h1 hc.2.1), ih, dif_neg (by omega), dif_neg (by simp; omega)]

theorem part_fill (n q : Nat) (vs : List (Nat → K)) (h : q < vs.length) :
    part n q (fillParts n vs) = .nums ((List.range n).map vs[q]) := by
  unfold part
  congr 1
  apply List.map_congr_left
  intro i hi
  rw [fillParts_eq n vs q i (List.mem_range.1 hi), dif_pos h]

theorem row_fill (r c j : Nat) (hj : j < r) (M : Nat → K) (b : Nat → K) (a : Nat) :
    (List.range c).foldl (fun (b : Nat → K) k => if M k ≠ 0 then Function.update b (j + r * k) (M k) else b) b a
      = if a % r = j ∧ a / r < c ∧ M (a / r) ≠ 0 then M (a / r) else b a := by
  induction c with
  | zero => simp
  | succ c ih =>
    rw [List.range_succ, List.foldl_append]
    simp only [List.foldl_cons, List.foldl_nil]
    by_cases ha : a = j + r * c
    · subst ha
      have e1 : (j + r * c) % r = j := by rw [Nat.add_mul_mod_self_left, Nat.mod_eq_of_lt hj]
      have e2 : (j + r * c) / r = c := by
        rw [Nat.add_mul_div_left _ _ (by omega), Nat.div_eq_of_lt hj, Nat.zero_add]
      by_cases hv : M c = 0
      · rw [if_neg (by simpa using hv), ih, e1, e2]
        simp [hv]
      · rw [if_pos hv, Function.update_self, e1, e2, if_pos ⟨rfl, by omega, hv⟩]
    · have : (if M c ≠ 0 then Function.update ((List.range c).foldl
          (fun (b : Nat → K) k => if M k ≠ 0 then Function.update b (j + r * k) (M k) else b) b) (j + r * c) (M c)
          else (List.range c).foldl (fun (b : Nat → K) k => if M k ≠ 0 then Function.update b (j + r * k) (M k) else b) b) a
          = (List.range c).foldl (fun (b : Nat → K) k => if M k ≠ 0 then Function.update b (j + r * k) (M k) else b) b a := by
        split
        · rw [Function.update_of_ne ha]
        · rfl
      rw [this, ih]
      have e : (a % r = j ∧ a / r < c ∧ M (a / r) ≠ 0) ↔ (a % r = j ∧ a / r < c + 1 ∧ M (a / r) ≠ 0) := by
        constructor
        · rintro ⟨h1, h2, h3⟩; exact ⟨h1, by omega, h3⟩
        · rintro ⟨h1, h2, h3⟩
          refine ⟨h1, ?_, h3⟩
          rcases Nat.lt_succ_iff_lt_or_eq.1 h2 with h | h
          · exact h
          · exact absurd (by rw [← h1, ← h]; exact (Nat.mod_add_div a r).symm) ha
      by_cases hc : a % r = j ∧ a / r < c ∧ M (a / r) ≠ 0
      · rw [if_pos hc, if_pos (e.1 hc)]
      · rw [if_neg hc, if_neg (fun h => hc (e.2 h))]

theorem rows_fill (r c : Nat) (M : Nat → Nat → K) (m : Nat) (hm : m ≤ r) (a : Nat) :
    (List.range m).foldl (fun (b : Nat → K) j => (List.range c).foldl (fun (b : Nat → K) k =>
      if M j k ≠ 0 then Function.update b (j + r * k) (M j k) else b) b) (fun _ => 0) a
      = if a % r < m ∧ a / r < c then M (a % r) (a / r) else 0 := by
  induction m with
  | zero => simp
  | succ m ih =>
    rw [List.range_succ, List.foldl_append]
    simp only [List.foldl_cons, List.foldl_nil]
    rw [row_fill r c m (by omega), ih (by omega)]
    by_cases h1 : a % r = m
    · rw [if_neg (show ¬ (a % r < m ∧ a / r < c) from fun h => by omega), h1]
      by_cases h2 : a / r < c
      · rw [if_pos (show m < m + 1 ∧ a / r < c from ⟨by omega, h2⟩)]
        by_cases hv : M m (a / r) = 0
        · simp [hv]
        · rw [if_pos ⟨rfl, h2, hv⟩]
      · rw [if_neg (fun h => h2 h.2.1), if_neg (fun h => h2 h.2)]
    · rw [if_neg (fun h => h1 h.1)]
      by_cases h2 : a % r < m ∧ a / r < c
      · rw [if_pos h2, if_pos ⟨by omega, h2.2⟩]
      · rw [if_neg h2, if_neg (fun h => h2 ⟨by omega, h.2⟩)]

theorem mat_fill (r c : Nat) (M : Nat → Nat → K) :
    whole (r * c) (fillMat r c M) = .nums ((List.range (r * c)).map (fun q => M (q % r) (q / r))) := by
  unfold whole
  congr 1
  apply List.map_congr_left
  intro q hq
  have hq := List.mem_range.1 hq
  have hr : 0 < r := by
    rcases Nat.eq_zero_or_pos r with h | h
    · rw [h, Nat.zero_mul] at hq; omega
    · exact h
  unfold fillMat
  rw [rows_fill r c M r (le_refl _), if_pos ⟨Nat.mod_lt _ hr, Nat.div_lt_of_lt_mul hq⟩]

theorem vec1_eq (d : Desc K) (k : Kind) (f : Fld) (n : Nat) : vec1 d k f n = d.vecVal k f n := by
  unfold vec1 Desc.vecVal; rw [part_fill _ _ _ (by simp)]; rfl

theorem lower_eq (d : Desc K) (k : Kind) (fl fu : Fld) (n : Nat) : lower d k fl fu n = d.vecVal k fl n := by
  unfold lower Desc.vecVal; rw [part_fill _ _ _ (by simp)]; rfl

theorem upper_eq (d : Desc K) (k : Kind) (fl fu : Fld) (n : Nat) : upper d k fl fu n = d.vecVal k fu n := by
  unfold upper Desc.vecVal; rw [part_fill _ _ _ (by simp)]; rfl

theorem slack0_eq (d : Desc K) (k : Kind) (n : Nat) : slack d k 0 n = d.vecVal k .Zl n := by
  unfold slack Desc.vecVal; rw [part_fill _ _ _ (by simp)]; rfl
theorem slack1_eq (d : Desc K) (k : Kind) (n : Nat) : slack d k 1 n = d.vecVal k .Zu n := by
  unfold slack Desc.vecVal; rw [part_fill _ _ _ (by simp)]; rfl
theorem slack2_eq (d : Desc K) (k : Kind) (n : Nat) : slack d k 2 n = d.vecVal k .zl n := by
  unfold slack Desc.vecVal; rw [part_fill _ _ _ (by simp)]; rfl
theorem slack3_eq (d : Desc K) (k : Kind) (n : Nat) : slack d k 3 n = d.vecVal k .zu n := by
  unfold slack Desc.vecVal; rw [part_fill _ _ _ (by simp)]; rfl

theorem mat1_eq (d : Desc K) (k : Kind) (f : Fld) (r c : Nat) : mat1 d k f r c = d.matVal k f r c := by
  unfold mat1 Desc.matVal; rw [mat_fill]

omit [Zero K] [DecidableEq K] in
theorem idx1_eq (d : Desc K) (k : Kind) (f : Fld) (n : Nat) : idx1 d k f n = d.idxVal k f n := rfl

end

/-! ### Blocks -/

/-- what a list of setter calls leaves in a field -/
def look (sets : List (Fld × Val K)) (g : Fld) (old : Option (Val K)) : Option (Val K) :=
  sets.foldl (fun acc fv => if g = fv.1 then some fv.2 else acc) old

theorem sets_eq (sets : List (Fld × Val K)) (i : Nat) (s : Nat → Fld → Option (Val K)) (j : Nat) (g : Fld) :
    sets.foldl (setFld i) s j g = if j = i then look sets g (s j g) else s j g := by
  induction sets generalizing s with
  | nil => simp [look]
  | cons fv t ih =>
    rw [List.foldl_cons, ih]
    unfold look
    by_cases h : j = i
    · simp [setFld, h]
    · simp [setFld, h]

theorem look_look (sets : List (Fld × Val K)) (g : Fld) (old : Option (Val K)) :
    look sets g (look sets g old) = look sets g old := by
  have key : ∀ (t : List (Fld × Val K)) (a b : Option (Val K)), (∃ fv ∈ t, g = fv.1) → look t g a = look t g b := by
    intro t
    induction t with
    | nil => rintro a b ⟨fv, h, -⟩; simp at h
    | cons fv t ih =>
      rintro a b ⟨fw, hm, hg⟩
      by_cases h : g = fv.1
      · simp [look, h]
      · have : ∃ fv ∈ t, g = fv.1 := by
          rcases List.mem_cons.1 hm with h' | h'
          · exact absurd (h' ▸ hg) h
          · exact ⟨fw, h', hg⟩
        have := ih a b this
        simpa [look, h] using this
  by_cases h : ∃ fv ∈ sets, g = fv.1
  · exact key _ _ _ h
  · have id : ∀ (t : List (Fld × Val K)) (a : Option (Val K)), (¬ ∃ fv ∈ t, g = fv.1) → look t g a = a := by
      intro t
      induction t with
      | nil => intro a _; rfl
      | cons fv t ih =>
        intro a h
        have h1 : g ≠ fv.1 := fun e => h ⟨fv, List.mem_cons_self, e⟩
        have := ih a (fun ⟨fw, hm, e⟩ => h ⟨fw, List.mem_cons_of_mem _ hm, e⟩)
        simpa [look, h1] using this
    rw [id _ _ h, id _ _ h]

theorem stages_eq (sets : List (Fld × Val K)) (st : List Nat) (s : Nat → Fld → Option (Val K)) (j : Nat) (g : Fld) :
    st.foldl (fun (s : Nat → Fld → Option (Val K)) i => sets.foldl (setFld i) s) s j g
      = if j ∈ st then look sets g (s j g) else s j g := by
  induction st generalizing s with
  | nil => simp
  | cons i t ih =>
    rw [List.foldl_cons, ih, sets_eq]
    by_cases h1 : j = i
    · by_cases h2 : j ∈ t
      · rw [if_pos h2, if_pos h1, if_pos (by simp [h1]), look_look]
      · rw [if_neg h2, if_pos h1, if_pos (by simp [h1])]
    · by_cases h2 : j ∈ t
      · rw [if_pos h2, if_neg h1, if_pos (by simp [h2])]
      · rw [if_neg h2, if_neg h1, if_neg (by simp [h1, h2])]

theorem runBlock_eq (s : Nat → Fld → Option (Val K)) (b : Block K) (j : Nat) (g : Fld) :
    runBlock s b j g = if b.cond = true ∧ j ∈ b.stages then look b.sets g (s j g) else s j g := by
  unfold runBlock
  by_cases h : b.cond = true
  · rw [if_pos h, stages_eq]; simp [h]
  · rw [if_neg h]; simp [h]

theorem mem_inner (N i : Nat) : i ∈ inner N ↔ 0 < i ∧ i < N := by
  unfold inner; rw [List.mem_range'_1]; omega

theorem look_or (sets : List (Fld × Val K)) (g : Fld) (old : Option (Val K)) :
    look sets g old = (look sets g none).or old := by
  unfold look
  induction sets using List.reverseRecOn with
  | nil => rfl
  | append_singleton t fv ih =>
    simp only [List.foldl_append, List.foldl_cons, List.foldl_nil]
    by_cases h : g = fv.1
    · simp [h]
    · rw [if_neg h, if_neg h]; exact ih

/-- what a part of the template leaves in a field, if it writes it -/
def contrib (i : Nat) (g : Fld) (b : Block K) : Option (Val K) :=
  if b.cond = true ∧ i ∈ b.stages then look b.sets g none else none

theorem fold_blocks (bs : List (Block K)) (s : Nat → Fld → Option (Val K)) (j : Nat) (g : Fld) :
    bs.foldl runBlock s j g = bs.foldl (fun (acc : Option (Val K)) b => (contrib j g b).or acc) (s j g) := by
  induction bs generalizing s with
  | nil => rfl
  | cons b t ih =>
    rw [List.foldl_cons, ih, runBlock_eq, List.foldl_cons]
    congr 1
    unfold contrib
    split
    · exact look_or _ _ _
    · rfl

theorem contrib_nil (i : Nat) (g : Fld) (c : Bool) (st : List Nat) (sets : List (Fld × Val K))
    (h : look sets g none = none) : contrib i g ⟨c, st, sets⟩ = none := by
  unfold contrib; split
  · exact h
  · rfl

theorem contrib_out (i : Nat) (g : Fld) (c : Bool) (st : List Nat) (sets : List (Fld × Val K))
    (h : ¬ (c = true ∧ i ∈ st)) : contrib i g ⟨c, st, sets⟩ = none := by
  unfold contrib; rw [if_neg h]

section
variable [Zero K] [DecidableEq K]

/-- what a group of parts leaves in a field -/
def group (bs : List (Block K)) (i : Nat) (g : Fld) : Option (Val K) :=
  bs.foldl (fun (acc : Option (Val K)) b => (contrib i g b).or acc) none

omit [Zero K] [DecidableEq K] in
theorem fold_or (bs : List (Block K)) (i : Nat) (g : Fld) (old : Option (Val K)) :
    bs.foldl (fun (acc : Option (Val K)) b => (contrib i g b).or acc) old = (group bs i g).or old := by
  unfold group
  induction bs using List.reverseRecOn with
  | nil => rfl
  | append_singleton t b ih =>
    simp only [List.foldl_append, List.foldl_cons, List.foldl_nil]
    rw [ih, Option.or_assoc]

set_option linter.unusedSimpArgs false

set_option maxHeartbeats 4000000 in
theorem value_zero (d : Desc K) (ok : d.Ok) (N i : Nat) (hN : N = 0) (hd : d.N = 0) (hi : i = 0) (old : Option (Val K)) (f : Fld) :
    (group (termBlocks d N) i f).or ((group (pathBlocks d N) i f).or ((group (sharedBlocks d N) i f).or
      ((group (initBlocks d) i f).or ((group (slackBlocks d N) i f).or ((group (costBlocksE d N) i f).or
      ((group (costBlocks d .path (inner N)) i f).or ((group (costBlocks d .init [0]) i f).or old)))))))
      = (d.value .term f).or old := by
  have o1 := ok.oneType .term
  have o2 := ok.noSbx0
  have o3 := ok.rev .term
  have o4 := ok.revE
  have m1 := mem_inner N i
  have m2 : i ∈ List.range N ↔ i < N := List.mem_range
  have m3 : i ∈ [0] ↔ i = 0 := List.mem_singleton
  have m4 : i ∈ [N] ↔ i = N := List.mem_singleton
  have a1 : (0 < i ∧ i < N) = False := eq_false (by omega)
  have a2 : (i < N) = False := eq_false (by omega)
  have a3 : (i = 0) = True := eq_true (by omega)
  have a4 : (i = N) = True := eq_true (by omega)
  have hhz : decide (0 < d.N) = false := by simp; omega
  clear ok
  cases f <;>
  · simp only [group, costBlocks, costBlocksE, slackBlocks, initBlocks, sharedBlocks, pathBlocks, termBlocks, List.foldl_cons,
      List.foldl_nil, softSets, boundSets, revSets, contrib, look, reduceCtorEq, if_false, if_true, ite_self, Option.none_or, Option.or_none,
      vec1_eq, lower_eq, upper_eq, slack0_eq, slack1_eq, slack2_eq, slack3_eq, mat1_eq, idx1_eq, m1, m2, m3, m4, hhz, a1, a2, a3, a4,
      and_false, and_true, true_and, Bool.and_eq_true, decide_eq_true_eq, Desc.value, shared, isLs, isLin, Bool.or_eq_true,
      Bool.not_eq_true', decide_eq_false_iff_not, ne_eq, not_true_eq_false, not_false_eq_true, Desc.rows, Bool.true_and,
      Bool.false_and, Bool.false_eq_true, false_and, Nat.zero_add]
    try (split_ifs <;> simp_all <;> omega)

set_option maxHeartbeats 4000000 in
theorem value_term (d : Desc K) (ok : d.Ok) (N i : Nat) (hN : 0 < N) (hd : 0 < d.N) (hi : i = N) (old : Option (Val K)) (f : Fld) :
    (group (termBlocks d N) i f).or ((group (pathBlocks d N) i f).or ((group (sharedBlocks d N) i f).or
      ((group (initBlocks d) i f).or ((group (slackBlocks d N) i f).or ((group (costBlocksE d N) i f).or
      ((group (costBlocks d .path (inner N)) i f).or ((group (costBlocks d .init [0]) i f).or old)))))))
      = (d.value .term f).or old := by
  have o1 := ok.oneType .term
  have o2 := ok.noSbx0
  have o3 := ok.rev .term
  have o4 := ok.revE
  have m1 := mem_inner N i
  have m2 : i ∈ List.range N ↔ i < N := List.mem_range
  have m3 : i ∈ [0] ↔ i = 0 := List.mem_singleton
  have m4 : i ∈ [N] ↔ i = N := List.mem_singleton
  have a1 : (0 < i ∧ i < N) = False := eq_false (by omega)
  have a2 : (i < N) = False := eq_false (by omega)
  have a3 : (i = 0) = False := eq_false (by omega)
  have a4 : (i = N) = True := eq_true (by omega)
  have hhz : decide (0 < d.N) = true := by simp; omega
  clear ok
  cases f <;>
  · simp only [group, costBlocks, costBlocksE, slackBlocks, initBlocks, sharedBlocks, pathBlocks, termBlocks, List.foldl_cons,
      List.foldl_nil, softSets, boundSets, revSets, contrib, look, reduceCtorEq, if_false, if_true, ite_self, Option.none_or, Option.or_none,
      vec1_eq, lower_eq, upper_eq, slack0_eq, slack1_eq, slack2_eq, slack3_eq, mat1_eq, idx1_eq, m1, m2, m3, m4, hhz, a1, a2, a3, a4,
      and_false, and_true, true_and, Bool.and_eq_true, decide_eq_true_eq, Desc.value, shared, isLs, isLin, Bool.or_eq_true,
      Bool.not_eq_true', decide_eq_false_iff_not, ne_eq, not_true_eq_false, not_false_eq_true, Desc.rows, Bool.true_and,
      Bool.false_and, Bool.false_eq_true, false_and, Nat.zero_add]
    try (split_ifs <;> simp_all <;> omega)

set_option maxHeartbeats 4000000 in
theorem value_init (d : Desc K) (ok : d.Ok) (N i : Nat) (hN : 0 < N) (hd : 0 < d.N) (hi : i = 0) (old : Option (Val K)) (f : Fld) :
    (group (termBlocks d N) i f).or ((group (pathBlocks d N) i f).or ((group (sharedBlocks d N) i f).or
      ((group (initBlocks d) i f).or ((group (slackBlocks d N) i f).or ((group (costBlocksE d N) i f).or
      ((group (costBlocks d .path (inner N)) i f).or ((group (costBlocks d .init [0]) i f).or old)))))))
      = (d.value .init f).or old := by
  have o1 := ok.oneType .init
  have o2 := ok.noSbx0
  have o3 := ok.rev .init
  have o4 := ok.revE
  have m1 := mem_inner N i
  have m2 : i ∈ List.range N ↔ i < N := List.mem_range
  have m3 : i ∈ [0] ↔ i = 0 := List.mem_singleton
  have m4 : i ∈ [N] ↔ i = N := List.mem_singleton
  have a1 : (0 < i ∧ i < N) = False := eq_false (by omega)
  have a2 : (i < N) = True := eq_true (by omega)
  have a3 : (i = 0) = True := eq_true (by omega)
  have a4 : (i = N) = False := eq_false (by omega)
  have hhz : decide (0 < d.N) = true := by simp; omega
  clear ok
  cases f <;>
  · simp only [group, costBlocks, costBlocksE, slackBlocks, initBlocks, sharedBlocks, pathBlocks, termBlocks, List.foldl_cons,
      List.foldl_nil, softSets, boundSets, revSets, contrib, look, reduceCtorEq, if_false, if_true, ite_self, Option.none_or, Option.or_none,
      vec1_eq, lower_eq, upper_eq, slack0_eq, slack1_eq, slack2_eq, slack3_eq, mat1_eq, idx1_eq, m1, m2, m3, m4, hhz, a1, a2, a3, a4,
      and_false, and_true, true_and, Bool.and_eq_true, decide_eq_true_eq, Desc.value, shared, isLs, isLin, Bool.or_eq_true,
      Bool.not_eq_true', decide_eq_false_iff_not, ne_eq, not_true_eq_false, not_false_eq_true, Desc.rows, Bool.true_and,
      Bool.false_and, Bool.false_eq_true, false_and, Nat.zero_add]
    try (split_ifs <;> simp_all <;> omega)

set_option maxHeartbeats 4000000 in
theorem value_path (d : Desc K) (ok : d.Ok) (N i : Nat) (hN : i < N) (hd : 0 < d.N) (hi : 0 < i) (old : Option (Val K)) (f : Fld) :
    (group (termBlocks d N) i f).or ((group (pathBlocks d N) i f).or ((group (sharedBlocks d N) i f).or
      ((group (initBlocks d) i f).or ((group (slackBlocks d N) i f).or ((group (costBlocksE d N) i f).or
      ((group (costBlocks d .path (inner N)) i f).or ((group (costBlocks d .init [0]) i f).or old)))))))
      = (d.value .path f).or old := by
  have o1 := ok.oneType .path
  have o2 := ok.noSbx0
  have o3 := ok.rev .path
  have o4 := ok.revE
  have m1 := mem_inner N i
  have m2 : i ∈ List.range N ↔ i < N := List.mem_range
  have m3 : i ∈ [0] ↔ i = 0 := List.mem_singleton
  have m4 : i ∈ [N] ↔ i = N := List.mem_singleton
  have a1 : (0 < i ∧ i < N) = True := eq_true (by omega)
  have a2 : (i < N) = True := eq_true (by omega)
  have a3 : (i = 0) = False := eq_false (by omega)
  have a4 : (i = N) = False := eq_false (by omega)
  have hhz : decide (0 < d.N) = true := by simp; omega
  clear ok
  cases f <;>
  · simp only [group, costBlocks, costBlocksE, slackBlocks, initBlocks, sharedBlocks, pathBlocks, termBlocks, List.foldl_cons,
      List.foldl_nil, softSets, boundSets, revSets, contrib, look, reduceCtorEq, if_false, if_true, ite_self, Option.none_or, Option.or_none,
      vec1_eq, lower_eq, upper_eq, slack0_eq, slack1_eq, slack2_eq, slack3_eq, mat1_eq, idx1_eq, m1, m2, m3, m4, hhz, a1, a2, a3, a4,
      and_false, and_true, true_and, Bool.and_eq_true, decide_eq_true_eq, Desc.value, shared, isLs, isLin, Bool.or_eq_true,
      Bool.not_eq_true', decide_eq_false_iff_not, ne_eq, not_true_eq_false, not_false_eq_true, Desc.rows, Bool.true_and,
      Bool.false_and, Bool.false_eq_true, false_and, Nat.zero_add]
    try (split_ifs <;> simp_all <;> omega)

/-- the value part of the template, field by field -/
theorem blocks_value (d : Desc K) (ok : d.Ok) (N i : Nat) (hN : 0 < N ↔ 0 < d.N) (hi : i ≤ N)
    (s : Nat → Fld → Option (Val K)) (f : Fld) :
    (blocks d N).foldl runBlock s i f = (d.value (kindOf N i) f).or (s i f) := by
  rw [fold_blocks]
  unfold blocks
  simp only [List.foldl_append, fold_or]
  by_cases h0 : N = 0
  · have e : kindOf N i = .term := by rw [kindOf, if_pos (by omega)]
    rw [e]; exact value_zero d ok N i h0 (by omega) (by omega) _ f
  · by_cases h1 : i = N
    · rw [kindOf, if_pos h1]; exact value_term d ok N i (by omega) (by omega) h1 _ f
    · by_cases h2 : i = 0
      · rw [kindOf, if_neg h1, if_pos h2]; exact value_init d ok N i (by omega) (by omega) h2 _ f
      · rw [kindOf, if_neg h1, if_neg h2]; exact value_path d ok N i (by omega) (by omega) (by omega) _ f

end

end Acados.GenSolver
