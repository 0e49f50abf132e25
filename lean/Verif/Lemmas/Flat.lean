import Verif.Model.Flat
import Verif.Lemmas.Params
import Mathlib.Tactic.Ring
/-! # Lemmas about flat access -/
namespace Acados.Flat
open Acados.Params (fold_block offset offset_disjoint)
variable {K : Type}

theorem pack_spec (n : Nat) (values : Nat → K) (voff : Nat) (fam : Fam) (k off : Nat) (o : Adr → K) :
    (∀ i < n, pack n values voff fam k off o (fam, k, off + i) = values (voff + i)) ∧
    ∀ a, (∀ i < n, a ≠ (fam, k, off + i)) → pack n values voff fam k off o a = o a :=
  fold_block n (fun i => ((fam, k, off + i) : Adr)) (fun i _ j _ e => by simpa using e) (fun i => values (voff + i)) o

theorem unpack_spec (n : Nat) (o : Adr → K) (fam : Fam) (k off : Nat) (values : Nat → K) (voff : Nat) :
    (∀ i < n, unpack n o fam k off values voff (voff + i) = o (fam, k, off + i)) ∧
    ∀ a, (∀ i < n, a ≠ voff + i) → unpack n o fam k off values voff a = values a :=
  fold_block n (fun i => voff + i) (fun i _ j _ e => by simpa using e) (fun i => o (fam, k, off + i)) values

theorem mulMask_spec [Mul K] (n : Nat) (mask : Nat → Nat → K) (k : Nat) (o : Adr → K) :
    (∀ i < n, mulMask n mask k o (.lam, k, i) = mask k i * o (.lam, k, i)) ∧
    ∀ a, (∀ i < n, a ≠ (.lam, k, i)) → mulMask n mask k o a = o a := by
  induction n with
  | zero => simp [mulMask]
  | succ n ih =>
    obtain ⟨h1, h2⟩ := ih
    have hr : mulMask (n + 1) mask k o = Function.update (mulMask n mask k o) (.lam, k, n)
        (mask k n * mulMask n mask k o (.lam, k, n)) := by
      simp only [mulMask, List.range_succ, List.foldl_append, List.foldl_cons, List.foldl_nil]
    rw [hr]
    refine ⟨fun i hi => ?_, fun a ha => ?_⟩
    · by_cases e : i = n
      · subst e
        rw [Function.update_self, h2 _ fun j hj => by simp; omega]
      · rw [Function.update_of_ne (by simpa using e), h1 i (by omega)]
    · rw [Function.update_of_ne (ha n (by omega)), h2 a fun i hi => ha i (by omega)]

/-- the number written for number `i` of stage `k` -/
def written [Mul K] (mask : Nat → Nat → K) (f : Field) (k i : Nat) (v : K) : K :=
  if f = .lam then mask k i * v else v

theorem setAllStage_spec [Mul K] (d : Dims) (mask : Nat → Nat → K) (f : Field) (values : Nat → K) (s : Nat × (Adr → K)) (k : Nat) :
    (setAllStage d mask f values s k).1 = s.1 + f.len d k ∧
    (∀ i < f.len d k, (setAllStage d mask f values s k).2 (f.place d k i) = written mask f k i (values (s.1 + i))) ∧
    ∀ a, (∀ i < f.len d k, a ≠ f.place d k i) → (setAllStage d mask f values s k).2 a = s.2 a := by
  refine ⟨by cases f <;> rfl, ?_⟩
  have key : ∀ fam off, f ≠ .lam → (∀ i, f.place d k i = (fam, k, off + i)) →
      (setAllStage d mask f values s k).2 = pack (f.len d k) values s.1 fam k off s.2 →
      (∀ i < f.len d k, (setAllStage d mask f values s k).2 (f.place d k i) = written mask f k i (values (s.1 + i))) ∧
      ∀ a, (∀ i < f.len d k, a ≠ f.place d k i) → (setAllStage d mask f values s k).2 a = s.2 a := by
    intro fam off hf hp hs
    obtain ⟨h1, h2⟩ := pack_spec (f.len d k) values s.1 fam k off s.2
    rw [hs]
    refine ⟨fun i hi => ?_, fun a ha => h2 a fun i hi => hp i ▸ ha i hi⟩
    rw [hp, h1 i hi, written, if_neg hf]
  have z : ∀ (fam : Fam) (i : Nat), ((fam, k, i) : Adr) = (fam, k, 0 + i) := fun _ i => by rw [Nat.zero_add]
  have c : ∀ (fam : Fam) (i : Nat), ((fam, k, d.nu k + d.nx k + i) : Adr) = (fam, k, d.nx k + d.nu k + i) :=
    fun _ i => by rw [Nat.add_comm (d.nu k)]
  cases f with
  | x => exact key .ux (d.nu k) (by simp) (fun _ => rfl) rfl
  | u => exact key .ux 0 (by simp) (fun i => z _ i) rfl
  | sl => exact key .ux (d.nx k + d.nu k) (by simp) (fun i => c _ i) rfl
  | su =>
    have c' : ∀ i, Field.su.place d k i = (.ux, k, d.nx k + d.nu k + d.ns k + i) := fun i => by
      rw [Nat.add_comm (d.nx k)]; rfl
    exact key .ux (d.nx k + d.nu k + d.ns k) (by simp) c' rfl
  | s => exact key .ux (d.nx k + d.nu k) (by simp) (fun i => c _ i) rfl
  | z => exact key .z 0 (by simp) (fun i => z _ i) rfl
  | pi => exact key .pi 0 (by simp) (fun i => z _ i) rfl
  | lam =>
    obtain ⟨h1, h2⟩ := pack_spec (2 * d.ni k) values s.1 .lam k 0 s.2
    obtain ⟨m1, m2⟩ := mulMask_spec (2 * d.ni k) mask k (pack (2 * d.ni k) values s.1 .lam k 0 s.2)
    refine ⟨fun i hi => ?_, fun a ha => ?_⟩
    · refine (m1 i hi).trans ?_
      have := h1 i hi
      rw [Nat.zero_add] at this
      rw [this]; rfl
    · refine (m2 a ha).trans (h2 a fun i hi => ?_)
      rw [Nat.zero_add]; exact ha i hi

theorem getAllStage_spec (d : Dims) (o : Adr → K) (f : Field) (s : Nat × (Nat → K)) (k : Nat) :
    (getAllStage d o f s k).1 = s.1 + f.len d k ∧
    (∀ i < f.len d k, (getAllStage d o f s k).2 (s.1 + i) = o (f.place d k i)) ∧
    ∀ a, (∀ i < f.len d k, a ≠ s.1 + i) → (getAllStage d o f s k).2 a = s.2 a := by
  refine ⟨by cases f <;> rfl, ?_⟩
  have key : ∀ fam off, (∀ i, f.place d k i = (fam, k, off + i)) →
      (getAllStage d o f s k).2 = unpack (f.len d k) o fam k off s.2 s.1 →
      (∀ i < f.len d k, (getAllStage d o f s k).2 (s.1 + i) = o (f.place d k i)) ∧
      ∀ a, (∀ i < f.len d k, a ≠ s.1 + i) → (getAllStage d o f s k).2 a = s.2 a := by
    intro fam off hp hs
    obtain ⟨h1, h2⟩ := unpack_spec (f.len d k) o fam k off s.2 s.1
    rw [hs]
    exact ⟨fun i hi => by rw [hp, h1 i hi], h2⟩
  have z : ∀ (fam : Fam) (i : Nat), ((fam, k, i) : Adr) = (fam, k, 0 + i) := fun _ i => by rw [Nat.zero_add]
  cases f with
  | x => exact key .ux (d.nu k) (fun _ => rfl) rfl
  | u => exact key .ux 0 (fun i => z _ i) rfl
  | sl => exact key .ux (d.nu k + d.nx k) (fun i => rfl) rfl
  | su => exact key .ux (d.nu k + d.nx k + d.ns k) (fun i => rfl) rfl
  | s => exact key .ux (d.nu k + d.nx k) (fun i => rfl) rfl
  | z => exact key .z 0 (fun i => z _ i) rfl
  | pi => exact key .pi 0 (fun i => z _ i) rfl
  | lam => exact key .lam 0 (fun i => z _ i) rfl

theorem place_stage (d : Dims) (f : Field) (k i : Nat) : (f.place d k i).2.1 = k := by cases f <;> rfl

theorem setAll_fold [Mul K] (d : Dims) (mask : Nat → Nat → K) (f : Field) (values : Nat → K) (o : Adr → K) (n : Nat) :
    let r := (List.range n).foldl (setAllStage d mask f values) (0, o)
    r.1 = offset (f.len d) n ∧
    (∀ k < n, ∀ i < f.len d k, r.2 (f.place d k i) = written mask f k i (values (offset (f.len d) k + i))) ∧
    ∀ a, (∀ k < n, ∀ i < f.len d k, a ≠ f.place d k i) → r.2 a = o a := by
  induction n with
  | zero => simp [offset]
  | succ n ih =>
    intro r
    have hr : r = setAllStage d mask f values ((List.range n).foldl (setAllStage d mask f values) (0, o)) n := by
      simp only [r, List.range_succ, List.foldl_append, List.foldl_cons, List.foldl_nil]
    obtain ⟨i1, i2, i3⟩ := ih
    generalize (List.range n).foldl (setAllStage d mask f values) (0, o) = q at *
    obtain ⟨s1, s2, s3⟩ := setAllStage_spec d mask f values q n
    clear_value r
    subst hr
    refine ⟨by rw [s1, i1]; rfl, fun k hk i hi => ?_, fun a ha => ?_⟩
    · by_cases e : k = n
      · subst e; rw [s2 i hi, i1]
      · rw [s3 _ fun j _ h => e ?_, i2 k (by omega) i hi]
        have := congrArg (fun a : Adr => a.2.1) h
        simpa [place_stage] using this
    · rw [s3 a (ha n (by omega)), i3 a fun k hk => ha k (by omega)]

theorem getAll_fold (d : Dims) (o : Adr → K) (f : Field) (values : Nat → K) (n : Nat) :
    let r := (List.range n).foldl (getAllStage d o f) (0, values)
    r.1 = offset (f.len d) n ∧
    (∀ k < n, ∀ i < f.len d k, r.2 (offset (f.len d) k + i) = o (f.place d k i)) ∧
    ∀ a, offset (f.len d) n ≤ a → r.2 a = values a := by
  induction n with
  | zero => simp [offset]
  | succ n ih =>
    intro r
    have hr : r = getAllStage d o f ((List.range n).foldl (getAllStage d o f) (0, values)) n := by
      simp only [r, List.range_succ, List.foldl_append, List.foldl_cons, List.foldl_nil]
    obtain ⟨i1, i2, i3⟩ := ih
    generalize (List.range n).foldl (getAllStage d o f) (0, values) = q at *
    obtain ⟨s1, s2, s3⟩ := getAllStage_spec d o f q n
    clear_value r
    subst hr
    refine ⟨by rw [s1, i1]; rfl, fun k hk i hi => ?_, fun a ha => ?_⟩
    · by_cases e : k = n
      · subst e; rw [← i1, s2 i hi]
      · rw [s3 _ fun j _ h => ?_, i2 k (by omega) i hi]
        have := offset_disjoint (f.len d) (show k < n by omega) hi
        omega
    · have ha' : offset (f.len d) n + f.len d n ≤ a := ha
      rw [s3 a fun i hi => by omega, i3 a (by omega)]

/-- a list of blocks read through offsets -/
theorem flat_list (len : Nat → Nat) (g : Nat → Nat → K) (v : Nat → K) (n : Nat)
    (h : ∀ k < n, ∀ i < len k, v (offset len k + i) = g k i) :
    (List.range (offset len n)).map v = (List.range n).flatMap fun k => (List.range (len k)).map (g k) := by
  induction n with
  | zero => rfl
  | succ n ih =>
    change (List.range (offset len n + len n)).map v = _
    rw [List.range_add, List.map_append, ih fun k hk => h k (by omega), List.range_succ, List.flatMap_append]
    congr 1
    simp only [List.flatMap_cons, List.flatMap_nil, List.append_nil, List.map_map]
    refine List.map_congr_left fun i hi => ?_
    exact h n (by omega) i (List.mem_range.1 hi)

theorem sumTo_eq (n : Nat) (a : Nat → Nat) : sumTo n a = offset a n := by
  induction n with
  | zero => rfl
  | succ n ih =>
    rw [sumTo, List.range_succ, List.foldl_append]
    show sumTo n a + a n = _
    rw [ih]; rfl

theorem offset_two (a : Nat → Nat) (n : Nat) : 2 * offset a n = offset (fun k => 2 * a k) n := by
  induction n with
  | zero => rfl
  | succ n ih => show 2 * (offset a n + a n) = offset (fun k => 2 * a k) n + 2 * a n; rw [← ih]; ring

theorem offset_shift (a : Nat → Nat) (n : Nat) : offset a (n + 1) = a 0 + offset (fun k => a (k + 1)) n := by
  induction n with
  | zero => show 0 + a 0 = a 0 + 0; omega
  | succ n ih => show offset a (n + 1) + a (n + 1) = a 0 + (offset (fun k => a (k + 1)) n + a (n + 1)); rw [ih]; ring

theorem flatMap_congr' {α β : Type} {l : List α} {f g : α → List β} (h : ∀ a ∈ l, f a = g a) : l.flatMap f = l.flatMap g := by
  induction l with
  | nil => rfl
  | cons a l ih =>
    rw [List.flatMap_cons, List.flatMap_cons, h a List.mem_cons_self, ih fun b hb => h b (List.mem_cons_of_mem _ hb)]

/-! ### Reset -/

theorem before_mono (len : Nat → Nat) {a b : Nat} (h : a ≤ b) : before len a ≤ before len b := by
  induction b with
  | zero => obtain rfl : a = 0 := by omega
            exact Nat.le_refl _
  | succ b ih =>
    by_cases e : a = b + 1
    · rw [e]
    · exact (ih (by omega)).trans (Nat.le_add_right _ _)

theorem before_block (len : Nat → Nat) {k n i : Nat} (h : k < n) (hi : i < len k) : before len k + i < before len n := by
  have := before_mono len (show k + 1 ≤ n from h)
  have e : before len (k + 1) = before len k + len k := rfl
  omega

theorem setZero_spec [Zero K] (n s : Nat) (h : Nat → K) :
    (∀ i < n, setZero n s h (s + i) = 0) ∧ ∀ a, (∀ i < n, a ≠ s + i) → setZero n s h a = h a :=
  fold_block n (fun i => s + i) (fun i _ j _ e => by simpa using e) (fun _ => (0 : K)) h

theorem setZero_keep [Zero K] (n s : Nat) (h : Nat → K) {a : Nat} (ha : h a = 0) : setZero n s h a = 0 := by
  by_cases e : ∃ i < n, a = s + i
  · obtain ⟨i, hi, rfl⟩ := e
    exact (setZero_spec n s h).1 i hi
  · rw [(setZero_spec n s h).2 a fun i hi h' => e ⟨i, hi, h'⟩, ha]

theorem reset_keep [Zero K] (pad : Nat → Nat) (d : Dims) (l : List Nat) (h : Nat → K) {a : Nat} (ha : h a = 0) :
    l.foldl (resetStage pad d) h a = 0 := by
  induction l generalizing h with
  | nil => exact ha
  | cons i l ih =>
    exact ih _ (setZero_keep _ _ _ (setZero_keep _ _ _ (setZero_keep _ _ _ (setZero_keep _ _ _ ha))))

theorem reset_of_stage [Zero K] (pad : Nat → Nat) (d : Dims) (k : Nat) (hk : k < d.N + 1) (a : Nat)
    (h : ∀ h : Nat → K, resetStage pad d h k a = 0) (h0 : Nat → K) : reset pad d h0 a = 0 := by
  rw [reset]
  have : List.range (d.N + 1) = List.range k ++ k :: (List.range (d.N - k)).map (· + (k + 1)) := by
    have e : d.N + 1 = k + ((d.N - k) + 1) := by omega
    rw [e, List.range_add, List.range_succ_eq_map, List.map_cons, List.map_map]
    congr 2
    refine List.map_congr_left fun i _ => ?_
    simp only [Function.comp]
    omega
  rw [this, List.foldl_append, List.foldl_cons]
  exact reset_keep pad d _ _ (h _)

theorem reset_frame [Zero K] (pad : Nat → Nat) (d : Dims) (l : List Nat) (h : Nat → K) (a : Nat)
    (ha : ∀ k ∈ l, ∀ h : Nat → K, resetStage pad d h k a = h a) : l.foldl (resetStage pad d) h a = h a := by
  induction l generalizing h with
  | nil => rfl
  | cons i l ih =>
    rw [List.foldl_cons, ih _ fun k hk => ha k (List.mem_cons_of_mem _ hk), ha i List.mem_cons_self]

end Acados.Flat
