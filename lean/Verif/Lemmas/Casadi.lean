import Verif.Model.Casadi
import Verif.Spec.Casadi
import Mathlib.Tactic.Ring
/-!
# Lemmas on the CasADi conversion loops
-/
set_option linter.unusedSectionVars false
namespace Acados.Casadi
variable {K : Type*} [Zero K] {ι : Type*} [DecidableEq ι]

/-- index `k` belongs to column `j` -/
def InCol (sp : Nat → Nat) (j k : Nat) : Prop := j < ncol sp ∧ idxcol sp j ≤ k ∧ k < idxcol sp (j + 1)

theorem rows_lt {sp : Nat → Nat} (hv : ValidSparsity sp) (h0 : sp 2 = 0) {j k k' : Nat} (hk : InCol sp j k)
    (hk' : InCol sp j k') (h : k < k') : row sp k < row sp k' := by
  obtain ⟨d, rfl⟩ := Nat.exists_eq_add_of_lt h
  induction d with
  | zero => exact hv.incr h0 j hk.1 k hk.2.1 hk'.2.2
  | succ d ih =>
    have h1 := hk.2.1
    have h2 := hk'.2.2
    have hm : InCol sp j (k + d + 1) := ⟨hk.1, by omega, by omega⟩
    refine (ih hm (by omega)).trans ?_
    exact hv.incr h0 j hk.1 (k + d + 1) hm.2.1 h2

theorem row_lt {sp : Nat → Nat} (hv : ValidSparsity sp) (h0 : sp 2 = 0) {j k : Nat} (hk : InCol sp j k) :
    row sp k < nrow sp := hv.rowLt h0 j hk.1 k hk.2.1 hk.2.2

theorem idxcol_mono {sp : Nat → Nat} (hv : ValidSparsity sp) (h0 : sp 2 = 0) {j j' : Nat} (h : j ≤ j')
    (hj : j' ≤ ncol sp) : idxcol sp j ≤ idxcol sp j' := by
  obtain ⟨d, rfl⟩ := Nat.exists_eq_add_of_le h
  induction d with
  | zero => exact le_refl _
  | succ d ih => exact (ih (by omega) (by omega)).trans (hv.mono h0 (j + d) (by unfold ncol at hj; omega))

theorem inCol_unique {sp : Nat → Nat} (hv : ValidSparsity sp) (h0 : sp 2 = 0) {j j' k : Nat} (h : InCol sp j k)
    (h' : InCol sp j' k) : j = j' := by
  by_contra hne
  rcases Nat.lt_or_gt_of_ne hne with hlt | hlt
  · have := idxcol_mono hv h0 (show j + 1 ≤ j' from hlt) h'.1.le
    have := h.2.2; have := h'.2.1; omega
  · have := idxcol_mono hv h0 (show j' + 1 ≤ j from hlt) h.1.le
    have := h'.2.2; have := h.2.1; omega

theorem inCol_exists {sp : Nat → Nat} (h0 : sp 2 = 0) (k : Nat) (hk : k < idxcol sp (ncol sp)) : ∃ j, InCol sp j k := by
  have : ∀ n ≤ ncol sp, k < idxcol sp n → ∃ j, InCol sp j k := by
    intro n
    induction n with
    | zero => intro _ h; simp only [idxcol, Nat.add_zero, h0] at h; omega
    | succ n ih =>
      intro hn h
      by_cases hc : k < idxcol sp n
      · exact ih (by omega) hc
      · exact ⟨n, by omega, by omega, h⟩
  exact this _ (le_refl _) hk

theorem nnz_eq {sp : Nat → Nat} (hv : ValidSparsity sp) : nnz sp = count sp := by
  unfold nnz count
  by_cases h0 : sp 2 = 0
  · rw [if_neg (by simp [h0]), if_pos h0]
    have : ∀ n ≤ ncol sp, (List.range n).foldl (fun n i => n + (idxcol sp (i + 1) - idxcol sp i)) 0 = idxcol sp n := by
      intro n
      induction n with
      | zero => intro _; exact h0.symm
      | succ n ih =>
        intro hn
        rw [List.range_succ, List.foldl_append, ih (by omega)]
        have := idxcol_mono hv h0 (show n ≤ n + 1 by omega) hn
        simp only [List.foldl_cons, List.foldl_nil]
        omega
    exact this _ (le_refl _)
  · rw [if_pos h0, if_neg h0]; rfl

/-- a full pattern: the buffer is the dense column-major matrix -/
structure Full (sp : Nat → Nat) : Prop where
  col : ∀ j ≤ ncol sp, idxcol sp j = j * nrow sp
  row : ∀ j < ncol sp, ∀ i < nrow sp, row sp (i + j * nrow sp) = i

theorem isDense_full {sp : Nat → Nat} (hv : ValidSparsity sp) (h0 : sp 2 = 0) (hr : nrow sp ≠ 0) (hc : ncol sp ≠ 0)
    (h : isDense sp = true) : Full sp := by
  unfold isDense at h
  rw [if_neg (by omega), if_neg (by simp [h0])] at h
  simp only [List.all_eq_true, List.mem_range, Bool.and_eq_true, decide_eq_true_eq, List.mem_range'_1] at h
  have hcol : ∀ j ≤ ncol sp, idxcol sp j = j * nrow sp := by
    intro j
    induction j with
    | zero => intro _; simp [idxcol, h0]
    | succ j ih =>
      intro hj
      have h1 := (h j (by omega)).1
      have h2 := ih (by omega)
      rw [Nat.succ_mul]; omega
  refine ⟨hcol, fun j hj i hi => ?_⟩
  have h1 := (h j hj).2 (i + j * nrow sp)
  have h2 := (h j hj).1
  rw [h2, hcol j hj.le] at h1
  have := h1 ⟨by omega, by omega⟩
  omega

theorem full_isDense {sp : Nat → Nat} (h : Full sp) : isDense sp = true := by
  unfold isDense
  split
  · rfl
  split
  · rfl
  simp only [List.all_eq_true, List.mem_range, Bool.and_eq_true, decide_eq_true_eq, List.mem_range'_1]
  intro j hj
  have h1 := h.col j hj.le
  have h2 := h.col (j + 1) hj
  rw [Nat.succ_mul] at h2
  refine ⟨by omega, fun k hk => ?_⟩
  have := h.row j hj (k - j * nrow sp) (by omega)
  rw [show k - j * nrow sp + j * nrow sp = k by omega] at this
  omega

/-! the nonzero loops -/

theorem scatter_col {sp : Nat → Nat} (hv : ValidSparsity sp) (h0 : sp 2 = 0) (inp : List K) (addr : Nat → Nat → ι)
    (hinj : ∀ i < nrow sp, ∀ i' < nrow sp, ∀ j < ncol sp, addr i j = addr i' j → i = i') (j : Nat) (hj : j < ncol sp)
    (hlen : idxcol sp (j + 1) ≤ inp.length) (o : ι → K) (m : Nat) (hm : idxcol sp j + m ≤ idxcol sp (j + 1)) :
    ∃ o', (List.range' (idxcol sp j) m).foldl (putOne sp inp addr j) (some (idxcol sp j, o)) = some (idxcol sp j + m, o')
      ∧ (∀ k, idxcol sp j ≤ k → k < idxcol sp j + m → inp[k]? = some (o' (addr (row sp k) j)))
      ∧ (∀ a, (∀ k, idxcol sp j ≤ k → k < idxcol sp j + m → addr (row sp k) j ≠ a) → o' a = o a) := by
  induction m with
  | zero => exact ⟨o, rfl, fun k h1 h2 => by omega, fun a _ => rfl⟩
  | succ m ih =>
    obtain ⟨o', h1, h2, h3⟩ := ih (by omega)
    have hlt : idxcol sp j + m < inp.length := by omega
    refine ⟨Function.update o' (addr (row sp (idxcol sp j + m)) j) inp[idxcol sp j + m], ?_, ?_, ?_⟩
    · rw [List.range'_1_concat, List.foldl_append, h1]
      simp [putOne, hlt, Nat.add_assoc]
    · intro k hk1 hk2
      by_cases hk : k = idxcol sp j + m
      · subst hk
        rw [Function.update_self, List.getElem?_eq_getElem hlt]
      · have hk' : k < idxcol sp j + m := by omega
        have hne : row sp k < row sp (idxcol sp j + m) :=
          rows_lt hv h0 ⟨hj, hk1, by omega⟩ ⟨hj, by omega, by omega⟩ hk'
        rw [Function.update_of_ne, h2 k hk1 hk']
        intro he
        have := hinj _ (row_lt hv h0 ⟨hj, hk1, by omega⟩) _ (row_lt hv h0 (j := j) ⟨hj, by omega, by omega⟩) j hj he
        omega
    · intro a ha
      rw [Function.update_of_ne (Ne.symm (ha _ (by omega) (by omega))), h3 a fun k hk1 hk2 => ha k hk1 (by omega)]

theorem scatter_spec {sp : Nat → Nat} (hv : ValidSparsity sp) (h0 : sp 2 = 0) (inp : List K) (addr : Nat → Nat → ι)
    (hinj : ∀ i < nrow sp, ∀ i' < nrow sp, ∀ j < ncol sp, ∀ j' < ncol sp, addr i j = addr i' j' → i = i' ∧ j = j')
    (hlen : idxcol sp (ncol sp) ≤ inp.length) (o : ι → K) :
    ∃ o', scatter sp inp addr o = some o'
      ∧ (∀ j k, InCol sp j k → inp[k]? = some (o' (addr (row sp k) j)))
      ∧ (∀ a, (∀ j k, InCol sp j k → addr (row sp k) j ≠ a) → o' a = o a) := by
  have key : ∀ n ≤ ncol sp, ∃ o', (List.range n).foldl (fun s j =>
      (List.range' (idxcol sp j) (idxcol sp (j + 1) - idxcol sp j)).foldl (putOne sp inp addr j) s) (some (0, o))
        = some (idxcol sp n, o')
      ∧ (∀ j < n, ∀ k, InCol sp j k → inp[k]? = some (o' (addr (row sp k) j)))
      ∧ (∀ a, (∀ j < n, ∀ k, InCol sp j k → addr (row sp k) j ≠ a) → o' a = o a) := by
    intro n
    induction n with
    | zero =>
      intro _
      exact ⟨o, by simp [idxcol, h0], fun j hj => by omega, fun _ _ => rfl⟩
    | succ n ih =>
      intro hn
      obtain ⟨o1, h1, h2, h3⟩ := ih (by omega)
      have hmono := idxcol_mono hv h0 (show n ≤ n + 1 by omega) hn
      obtain ⟨o2, h4, h5, h6⟩ := scatter_col hv h0 inp addr
        (fun i hi i' hi' j hj he => (hinj i hi i' hi' j hj j hj he).1) n hn
        ((idxcol_mono hv h0 hn (le_refl _)).trans hlen) o1 (idxcol sp (n + 1) - idxcol sp n) (by omega)
      refine ⟨o2, ?_, ?_, ?_⟩
      · rw [List.range_succ, List.foldl_append, h1]
        simp only [List.foldl_cons, List.foldl_nil]
        rw [h4]
        congr 2
        omega
      · intro j hj k hk
        by_cases hjn : j = n
        · subst hjn
          have := hk.2.2
          exact h5 k hk.2.1 (by omega)
        · rw [h6, h2 j (by omega) k hk]
          intro k' hk1 hk2 he
          have hc : InCol sp n k' := ⟨by omega, hk1, by omega⟩
          have := (hinj _ (row_lt hv h0 hc) _ (row_lt hv h0 hk) n (by omega) j hk.1 he).2
          omega
      · intro a ha
        rw [h6 a fun k hk1 hk2 => ha n (by omega) k ⟨by omega, hk1, by omega⟩,
          h3 a fun j hj k hk => ha j (by omega) k hk]
  obtain ⟨o', h1, h2, h3⟩ := key _ (le_refl _)
  refine ⟨o', ?_, fun j k hk => h2 j hk.1 k hk, fun a ha => h3 a fun j _ k hk => ha j k hk⟩
  unfold scatter
  rw [h1]
  rfl

theorem gather_spec {sp : Nat → Nat} (hv : ValidSparsity sp) (h0 : sp 2 = 0) (mem : ι → K) (addr : Nat → Nat → ι)
    (o : Nat → K) :
    (∀ j k, InCol sp j k → gather sp mem addr o k = mem (addr (row sp k) j))
    ∧ (∀ k, idxcol sp (ncol sp) ≤ k → gather sp mem addr o k = o k) := by
  have hcol : ∀ j < ncol sp, ∀ (o : Nat → K) (m : Nat), idxcol sp j + m ≤ idxcol sp (j + 1) →
      ∃ o', (List.range' (idxcol sp j) m).foldl (getOne sp mem addr j) (idxcol sp j, o) = (idxcol sp j + m, o')
      ∧ (∀ k, idxcol sp j ≤ k → k < idxcol sp j + m → o' k = mem (addr (row sp k) j))
      ∧ (∀ k, (k < idxcol sp j ∨ idxcol sp j + m ≤ k) → o' k = o k) := by
    intro j hj o m
    induction m with
    | zero => intro _; exact ⟨o, rfl, fun k _ _ => by omega, fun _ _ => rfl⟩
    | succ m ih =>
      intro hm
      obtain ⟨o', h1, h2, h3⟩ := ih (by omega)
      refine ⟨Function.update o' (idxcol sp j + m) (mem (addr (row sp (idxcol sp j + m)) j)), ?_, ?_, ?_⟩
      · rw [List.range'_1_concat, List.foldl_append, h1]
        simp only [List.foldl_cons, List.foldl_nil, getOne, Nat.add_assoc]
      · intro k hk1 hk2
        by_cases hk : k = idxcol sp j + m
        · subst hk; rw [Function.update_self]
        · rw [Function.update_of_ne hk, h2 k hk1 (by omega)]
      · intro k hk
        rw [Function.update_of_ne (by omega), h3 k (by omega)]
  have key : ∀ n ≤ ncol sp, ∃ o', (List.range n).foldl (fun s j =>
      (List.range' (idxcol sp j) (idxcol sp (j + 1) - idxcol sp j)).foldl (getOne sp mem addr j) s) (0, o)
        = (idxcol sp n, o')
      ∧ (∀ j < n, ∀ k, InCol sp j k → o' k = mem (addr (row sp k) j))
      ∧ (∀ k, idxcol sp n ≤ k → o' k = o k) := by
    intro n
    induction n with
    | zero => intro _; exact ⟨o, by simp [idxcol, h0], fun j hj => by omega, fun _ _ => rfl⟩
    | succ n ih =>
      intro hn
      obtain ⟨o1, h1, h2, h3⟩ := ih (by omega)
      have hmono := idxcol_mono hv h0 (show n ≤ n + 1 by omega) hn
      obtain ⟨o2, h4, h5, h6⟩ := hcol n hn o1 (idxcol sp (n + 1) - idxcol sp n) (by omega)
      refine ⟨o2, ?_, ?_, ?_⟩
      · rw [List.range_succ, List.foldl_append, h1]
        simp only [List.foldl_cons, List.foldl_nil]
        rw [h4]
        congr 1
        omega
      · intro j hj k hk
        by_cases hjn : j = n
        · subst hjn
          have := hk.2.2
          exact h5 k hk.2.1 (by omega)
        · have := idxcol_mono hv h0 (show j + 1 ≤ n by omega) (by omega)
          have := hk.2.2
          rw [h6 k (by omega), h2 j (by omega) k hk]
      · intro k hk
        rw [h6 k (by omega), h3 k (by omega)]
  obtain ⟨o', h1, h2, h3⟩ := key _ (le_refl _)
  unfold gather
  rw [h1]
  exact ⟨fun j k hk => h2 j hk.1 k hk, h3⟩

/-! dense loops -/

/-- address `a` is not written by the block -/
def Outside (nr nc : Nat) (addr : Nat → Nat → ι) (a : ι) : Prop := ∀ i < nr, ∀ j < nc, addr i j ≠ a

theorem zeroBlock_spec (nr nc : Nat) (addr : Nat → Nat → ι) (o : ι → K) :
    (∀ i < nr, ∀ j < nc, zeroBlock nr nc addr o (addr i j) = 0)
    ∧ ∀ a, Outside nr nc addr a → zeroBlock nr nc addr o a = o a := by
  have hcol : ∀ (j : Nat) (o : ι → K) (m : Nat) (a : ι),
      (List.range m).foldl (fun o i => Function.update o (addr i j) 0) o a
        = if ∃ i < m, addr i j = a then 0 else o a := by
    intro j o m a
    induction m with
    | zero => simp
    | succ m ih =>
      rw [List.range_succ, List.foldl_append]
      simp only [List.foldl_cons, List.foldl_nil]
      by_cases h : addr m j = a
      · rw [if_pos ⟨m, by omega, h⟩, ← h, Function.update_self]
      · rw [Function.update_of_ne (Ne.symm h), ih]
        refine if_congr ⟨fun ⟨i, hi, he⟩ => ⟨i, by omega, he⟩, fun ⟨i, hi, he⟩ => ⟨i, ?_, he⟩⟩ rfl rfl
        by_contra hc
        exact h (by rwa [show m = i by omega])
  have key : ∀ n (a : ι), (List.range n).foldl
      (fun o j => (List.range nr).foldl (fun o i => Function.update o (addr i j) 0) o) o a
        = if ∃ j < n, ∃ i < nr, addr i j = a then 0 else o a := by
    intro n
    induction n with
    | zero => intro a; simp
    | succ n ih =>
      intro a
      rw [List.range_succ, List.foldl_append]
      simp only [List.foldl_cons, List.foldl_nil]
      rw [hcol, ih]
      by_cases h : ∃ i < nr, addr i n = a
      · rw [if_pos h, if_pos ⟨n, by omega, h⟩]
      · rw [if_neg h]
        refine if_congr ⟨fun ⟨j, hj, he⟩ => ⟨j, by omega, he⟩, fun ⟨j, hj, he⟩ => ⟨j, ?_, he⟩⟩ rfl rfl
        by_contra hc
        exact h (by rwa [show n = j by omega])
  unfold zeroBlock
  refine ⟨fun i hi j hj => ?_, fun a ha => ?_⟩
  · rw [key, if_pos ⟨j, hj, i, hi, rfl⟩]
  · rw [key, if_neg]
    rintro ⟨j, hj, i, hi, he⟩
    exact ha i hi j hj he

theorem packBlock_spec (nr nc ld : Nat) (inp : List K) (addr : Nat → Nat → ι)
    (hinj : ∀ i < nr, ∀ i' < nr, ∀ j < nc, ∀ j' < nc, addr i j = addr i' j' → i = i' ∧ j = j')
    (hlen : ∀ i < nr, ∀ j < nc, i + j * ld < inp.length) (o : ι → K) :
    ∃ o', packBlock nr nc ld inp addr o = some o' ∧ (∀ i < nr, ∀ j < nc, inp[i + j * ld]? = some (o' (addr i j)))
      ∧ ∀ a, Outside nr nc addr a → o' a = o a := by
  have hcol : ∀ j < nc, ∀ (o : ι → K) (m : Nat), m ≤ nr → ∃ o', (List.range m).foldl (fun o i =>
        o.bind fun m => (inp[i + j * ld]?).map fun v => Function.update m (addr i j) v) (some o) = some o'
      ∧ (∀ i < m, inp[i + j * ld]? = some (o' (addr i j))) ∧ ∀ a, (∀ i < m, addr i j ≠ a) → o' a = o a := by
    intro j hj o m
    induction m with
    | zero => intro _; exact ⟨o, rfl, fun i hi => by omega, fun _ _ => rfl⟩
    | succ m ih =>
      intro hm
      obtain ⟨o', h1, h2, h3⟩ := ih (by omega)
      have hl := hlen m (by omega) j hj
      refine ⟨Function.update o' (addr m j) inp[m + j * ld], ?_, ?_, ?_⟩
      · rw [List.range_succ, List.foldl_append, h1]
        simp [hl]
      · intro i hi
        by_cases him : i = m
        · subst him; rw [Function.update_self, List.getElem?_eq_getElem hl]
        · rw [Function.update_of_ne, h2 i (by omega)]
          intro he
          exact him (hinj i (by omega) m (by omega) j hj j hj he).1
      · intro a ha
        rw [Function.update_of_ne (Ne.symm (ha m (by omega))), h3 a fun i hi => ha i (by omega)]
  have key : ∀ n ≤ nc, ∃ o', (List.range n).foldl (fun o j => (List.range nr).foldl (fun o i =>
        o.bind fun m => (inp[i + j * ld]?).map fun v => Function.update m (addr i j) v) o) (some o) = some o'
      ∧ (∀ i < nr, ∀ j < n, inp[i + j * ld]? = some (o' (addr i j)))
      ∧ ∀ a, (∀ i < nr, ∀ j < n, addr i j ≠ a) → o' a = o a := by
    intro n
    induction n with
    | zero => intro _; exact ⟨o, rfl, fun i hi j hj => by omega, fun _ _ => rfl⟩
    | succ n ih =>
      intro hn
      obtain ⟨o1, h1, h2, h3⟩ := ih (by omega)
      obtain ⟨o2, h4, h5, h6⟩ := hcol n (by omega) o1 nr (le_refl _)
      refine ⟨o2, ?_, ?_, ?_⟩
      · rw [List.range_succ, List.foldl_append, h1]
        simp only [List.foldl_cons, List.foldl_nil]
        exact h4
      · intro i hi j hj
        by_cases hjn : j = n
        · subst hjn; exact h5 i hi
        · rw [h6, h2 i hi j (by omega)]
          intro i' hi' he
          exact hjn (hinj i' hi' i hi n (by omega) j (by omega) he).2.symm
      · intro a ha
        rw [h6 a fun i hi => ha i hi n (by omega), h3 a fun i hi j hj => ha i hi j (by omega)]
  obtain ⟨o', h1, h2, h3⟩ := key _ (le_refl _)
  exact ⟨o', h1, h2, h3⟩

theorem packBlock_overrun (nr nc ld : Nat) (inp : List K) (addr : Nat → Nat → ι) (o : ι → K) (i j : Nat) (hi : i < nr)
    (hj : j < nc) (h : inp.length ≤ i + j * ld) : packBlock nr nc ld inp addr o = none := by
  have hnone : ∀ (l : List Nat) (j : Nat), l.foldl (fun o i =>
      o.bind fun m => (inp[i + j * ld]?).map fun v => Function.update m (addr i j) v) (none : Option (ι → K)) = none := by
    intro l j
    induction l with
    | nil => rfl
    | cons a l ih => exact ih
  have hin : ∀ (l : List Nat) (o : Option (ι → K)), i ∈ l → l.foldl (fun o i =>
      o.bind fun m => (inp[i + j * ld]?).map fun v => Function.update m (addr i j) v) o = none := by
    intro l
    induction l with
    | nil => intro o hm; simp at hm
    | cons a l ih =>
      intro o hm
      by_cases ha : a = i
      · subst ha
        rw [List.foldl_cons, List.getElem?_eq_none h]
        cases o <;> exact hnone l j
      · rw [List.foldl_cons]
        exact ih _ ((List.mem_cons.1 hm).resolve_left (Ne.symm ha))
  have hout : ∀ (l : List Nat) (o : Option (ι → K)), j ∈ l → l.foldl (fun o j => (List.range nr).foldl (fun o i =>
        o.bind fun m => (inp[i + j * ld]?).map fun v => Function.update m (addr i j) v) o) o = none := by
    intro l
    have hn2 : ∀ l : List Nat, l.foldl (fun o j => (List.range nr).foldl (fun o i =>
        o.bind fun m => (inp[i + j * ld]?).map fun v => Function.update m (addr i j) v) o) (none : Option (ι → K)) = none := by
      intro l
      induction l with
      | nil => rfl
      | cons a l ih => rw [List.foldl_cons, hnone]; exact ih
    induction l with
    | nil => intro o hm; simp at hm
    | cons a l ih =>
      intro o hm
      by_cases ha : a = j
      · subst ha
        rw [List.foldl_cons, hin _ _ (List.mem_range.2 hi)]
        exact hn2 l
      · rw [List.foldl_cons]
        exact ih _ ((List.mem_cons.1 hm).resolve_left (Ne.symm ha))
  exact hout _ _ (List.mem_range.2 hj)

theorem unpackBlock_spec (nr nc ld : Nat) (mem : ι → K) (addr : Nat → Nat → ι) (hld : nr ≤ ld ∨ nc ≤ 1) (o : Nat → K) :
    (∀ i < nr, ∀ j < nc, unpackBlock nr nc ld mem addr o (i + j * ld) = mem (addr i j))
    ∧ ∀ k, (∀ i < nr, ∀ j < nc, i + j * ld ≠ k) → unpackBlock nr nc ld mem addr o k = o k := by
  have hcol : ∀ (j : Nat) (o : Nat → K) (m : Nat),
      (∀ i < m, (List.range m).foldl (fun o i => Function.update o (i + j * ld) (mem (addr i j))) o (i + j * ld)
        = mem (addr i j))
      ∧ ∀ k, (∀ i < m, i + j * ld ≠ k) →
        (List.range m).foldl (fun o i => Function.update o (i + j * ld) (mem (addr i j))) o k = o k := by
    intro j o m
    induction m with
    | zero => exact ⟨fun i hi => by omega, fun _ _ => rfl⟩
    | succ m ih =>
      rw [List.range_succ, List.foldl_append]
      simp only [List.foldl_cons, List.foldl_nil]
      refine ⟨fun i hi => ?_, fun k hk => ?_⟩
      · by_cases him : i = m
        · subst him; rw [Function.update_self]
        · rw [Function.update_of_ne (by omega), ih.1 i (by omega)]
      · rw [Function.update_of_ne (Ne.symm (hk m (by omega))), ih.2 k fun i hi => hk i (by omega)]
  have key : ∀ n ≤ nc,
      (∀ i < nr, ∀ j < n, (List.range n).foldl (fun o j => (List.range nr).foldl (fun o i =>
        Function.update o (i + j * ld) (mem (addr i j))) o) o (i + j * ld) = mem (addr i j))
      ∧ ∀ k, (∀ i < nr, ∀ j < n, i + j * ld ≠ k) → (List.range n).foldl (fun o j => (List.range nr).foldl (fun o i =>
        Function.update o (i + j * ld) (mem (addr i j))) o) o k = o k := by
    intro n
    induction n with
    | zero => intro _; exact ⟨fun i _ j hj => by omega, fun _ _ => rfl⟩
    | succ n ih =>
      intro hn
      have ih := ih (by omega)
      rw [List.range_succ, List.foldl_append]
      simp only [List.foldl_cons, List.foldl_nil]
      refine ⟨fun i hi j hj => ?_, fun k hk => ?_⟩
      · by_cases hjn : j = n
        · subst hjn; exact (hcol j _ nr).1 i hi
        · rw [(hcol n _ nr).2, ih.1 i hi j (by omega)]
          intro i' hi' he
          rcases hld with hld | hld
          · obtain ⟨d, hd⟩ := Nat.exists_eq_add_of_lt (show j < n by omega)
            rw [hd, Nat.add_mul, Nat.add_mul] at he
            omega
          · omega
      · rw [(hcol n _ nr).2 k fun i hi => hk i hi n (by omega), ih.2 k fun i hi j hj => hk i hi j (by omega)]
  exact key _ (le_refl _)

theorem cm_inj (nr nc ld : Nat) (h : nr ≤ ld) : ∀ i < nr, ∀ i' < nr, ∀ j < nc, ∀ j' < nc,
    cm ld i j = cm ld i' j' → i = i' ∧ j = j' := by
  intro i hi i' hi' j _ j' _ he
  unfold cm at he
  have hj : j = j' := by
    by_contra hne
    rcases Nat.lt_or_gt_of_ne hne with hlt | hlt
    · obtain ⟨d, rfl⟩ := Nat.exists_eq_add_of_lt hlt
      rw [Nat.add_mul, Nat.add_mul] at he; omega
    · obtain ⟨d, rfl⟩ := Nat.exists_eq_add_of_lt hlt
      rw [Nat.add_mul, Nat.add_mul] at he; omega
  subst hj
  exact ⟨by omega, rfl⟩

end Acados.Casadi
