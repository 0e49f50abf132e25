import Verif.Lemmas.Flat
/-!
# C46, C57: flat trajectories and resetting an iterate
-/
namespace Acados.Flat
open Acados.Params (offset offset_disjoint)
variable {K : Type}

theorem offset_stages (d : Dims) (f : Field) : offset (f.len d) (f.stages d) = (f.flat d (fun _ => ())).length := by
  rw [Field.flat, ← flat_list (f.len d) (fun _ _ => ()) (fun _ => ()) (f.stages d) fun _ _ _ _ => rfl]
  simp

/-- C46: the reported total of a field is the length of its flat trajectory. -/
theorem C46_total (d : Dims) (f : Field) (val : Adr → K) : total d f = (f.flat d val).length := by
  have h : (f.flat d val).length = offset (f.len d) (f.stages d) := by
    rw [offset_stages, Field.flat, Field.flat, List.length_flatMap, List.length_flatMap]
    simp
  rw [h]
  cases f with
  | x | u | sl | su | z => exact sumTo_eq _ _
  | s => exact (congrArg (2 * ·) (sumTo_eq _ _)).trans (offset_two _ _)
  | lam => exact (congrArg (2 * ·) (sumTo_eq _ _)).trans (offset_two _ _)
  | pi =>
    show sumTo (d.N + 1) d.nx - d.nx 0 = offset (fun k => d.nx (k + 1)) d.N
    rw [sumTo_eq, offset_shift]; omega

/-- C46: reading a flat trajectory gives the stage vectors one after the other, and writes nothing after the reported
total. -/
theorem C46_get_all (d : Dims) (o : Adr → K) (f : Field) (values : Nat → K) :
    (List.range (total d f)).map (getAll d o f values) = f.flat d o ∧
    ∀ a, total d f ≤ a → getAll d o f values a = values a := by
  have ht : total d f = offset (f.len d) (f.stages d) := by rw [C46_total d f (fun _ => ()), offset_stages]
  have hg : getAll d o f values = ((List.range (f.stages d)).foldl (getAllStage d o f) (0, values)).2 := by
    cases f <;> rfl
  obtain ⟨_, h2, h3⟩ := getAll_fold d o f values (f.stages d)
  rw [ht, hg]
  exact ⟨flat_list _ (fun k i => o (f.place d k i)) _ _ h2, h3⟩

/-- C46: after a flat write the flat trajectory is what was written; for multipliers, times the mask, so that multipliers
of masked constraints are zero.  Nothing else changes. -/
theorem C46_set_all [Mul K] (d : Dims) (mask : Nat → Nat → K) (f : Field) (values : Nat → K) (o : Adr → K) :
    (f ≠ .lam → f.flat d (setAll d mask f values o) = (List.range (total d f)).map values) ∧
    (f = .lam → f.flat d (setAll d mask f values o)
      = List.zipWith (· * ·) (f.flat d fun a => mask a.2.1 a.2.2) ((List.range (total d f)).map values)) ∧
    ∀ a, (∀ k < f.stages d, ∀ i < f.len d k, a ≠ f.place d k i) → setAll d mask f values o a = o a := by
  have ht : total d f = offset (f.len d) (f.stages d) := by rw [C46_total d f (fun _ => ()), offset_stages]
  have hg : setAll d mask f values o = ((List.range (f.stages d)).foldl (setAllStage d mask f values) (0, o)).2 := by
    cases f <;> rfl
  obtain ⟨_, h2, h3⟩ := setAll_fold d mask f values o (f.stages d)
  rw [ht, hg]
  generalize ((List.range (f.stages d)).foldl (setAllStage d mask f values) (0, o)).2 = q at *
  have hv := flat_list (f.len d) (fun k i => values (offset (f.len d) k + i)) values (f.stages d) fun _ _ _ _ => rfl
  have hq : f.flat d q = (List.range (f.stages d)).flatMap fun k => (List.range (f.len d k)).map fun i =>
      written mask f k i (values (offset (f.len d) k + i)) := by
    refine flatMap_congr' fun k hk => List.map_congr_left fun i hi => ?_
    exact h2 k (List.mem_range.1 hk) i (List.mem_range.1 hi)
  refine ⟨fun hf => ?_, fun hf => ?_, h3⟩
  · rw [hq, hv]
    refine flatMap_congr' fun k _ => List.map_congr_left fun i _ => ?_
    rw [written, if_neg hf]
  · rw [hq, hv]
    subst hf
    simp only [written, if_true, Field.flat]
    generalize List.range (Field.lam.stages d) = l
    induction l with
    | nil => rfl
    | cons k l ih =>
      rw [List.flatMap_cons, List.flatMap_cons, List.flatMap_cons, ih, List.zipWith_append (by simp)]
      congr 1
      simp only [List.zipWith_map, Field.place]
      generalize List.range (Field.lam.len d k) = m
      induction m with
      | nil => rfl
      | cons i m ih => rw [List.map_cons, List.zipWith_cons_cons, ih]

/-- C46, round trip: writing a flat trajectory and reading it back gives the same numbers (multipliers: times the mask). -/
theorem C46_roundtrip [Mul K] (d : Dims) (mask : Nat → Nat → K) (f : Field) (values buf : Nat → K) (o : Adr → K)
    (hf : f ≠ .lam) (a : Nat) (ha : a < total d f) : getAll d (setAll d mask f values o) f buf a = values a := by
  have h := (C46_get_all d (setAll d mask f values o) f buf).1
  rw [(C46_set_all d mask f values o).1 hf] at h
  exact List.map_inj_left.1 h a (List.mem_range.2 ha)

theorem setAllStage_outSet [Mul K] (d : Dims) (mask : Nat → Nat → K) (f : Field) (values : Nat → K) (s : Nat × (Adr → K))
    (k : Nat) (hf : f ≠ .s) :
    outSet d mask k f (fun i => values (s.1 + i)) s.2 = some (setAllStage d mask f values s k).2 := by
  have c : d.nx k + d.nu k = d.nu k + d.nx k := Nat.add_comm _ _
  cases f <;> first
    | exact absurd rfl hf
    | (simp only [outSet, setAllStage, pack, Nat.zero_add, c])

/-- C46: a flat write is the sequence of stage writes, each with its part of the trajectory (the field `s`, both slack
vectors, exists only for flat access). -/
theorem C46_set_all_stagewise [Mul K] (d : Dims) (mask : Nat → Nat → K) (f : Field) (values : Nat → K) (o : Adr → K)
    (hf : f ≠ .s) :
    (List.range (f.stages d)).foldlM
        (fun o k => outSet d mask k f (fun i => values (((List.range k).map (f.len d)).sum + i)) o) o
      = some (setAll d mask f values o) := by
  have hg : setAll d mask f values o = ((List.range (f.stages d)).foldl (setAllStage d mask f values) (0, o)).2 := by
    cases f <;> rfl
  rw [hg]
  generalize f.stages d = n
  have : ∀ n, ((List.range n).foldl (setAllStage d mask f values) (0, o)).1 = ((List.range n).map (f.len d)).sum ∧
      (List.range n).foldlM
        (fun o k => outSet d mask k f (fun i => values (((List.range k).map (f.len d)).sum + i)) o) o
      = some ((List.range n).foldl (setAllStage d mask f values) (0, o)).2 := by
    intro n
    induction n with
    | zero => exact ⟨rfl, rfl⟩
    | succ n ih =>
      obtain ⟨i1, i2⟩ := ih
      rw [List.range_succ, List.foldl_append, List.foldlM_append, i2, List.map_append, List.sum_append]
      generalize (List.range n).foldl (setAllStage d mask f values) (0, o) = q at *
      obtain ⟨s1, _⟩ := setAllStage_spec d mask f values q n
      refine ⟨by simp [s1, i1], ?_⟩
      simp only [List.foldl_cons, List.foldl_nil, List.foldlM_cons, List.foldlM_nil, Option.bind_eq_bind, Option.bind_some]
      rw [← i1, setAllStage_outSet d mask f values q n hf]
      rfl
  exact (this n).2

/-- C46: the stage read returns the numbers of that stage and writes nothing after them. -/
theorem C46_get_stage (d : Dims) (k : Nat) (f : Field) (o : Adr → K) (values : Nat → K) (hf : f ≠ .s) :
    ∃ v, outGet d k f o values = some v ∧ (∀ i < f.len d k, v i = o (f.place d k i)) ∧ ∀ a, f.len d k ≤ a → v a = values a := by
  have key : outGet d k f o values = some (getAllStage d o f (0, values) k).2 := by
    cases f <;> first | exact absurd rfl hf | rfl
  refine ⟨(getAllStage d o f (0, values) k).2, key, ?_⟩
  obtain ⟨_, s2, s3⟩ := getAllStage_spec d o f (0, values) k
  simp only [Nat.zero_add] at s2 s3
  exact ⟨s2, fun a ha => s3 a fun i hi => by omega⟩

/-- two stages, the second without inputs; slacks at the last stage -/
def exD : Dims := ⟨1, fun _ => 2, fun k => if k = 0 then 1 else 0, fun _ => 1, fun k => k, fun _ => 1⟩

/-- `pi` has one stage, `s` both slack vectors of the last stage; a flat write of states is read back and leaves inputs and
slacks alone -/
example : [total exD .x, total exD .u, total exD .s, total exD .z, total exD .pi, total exD .lam] = [4, 1, 2, 1, 2, 4] ∧
    (let o := setAll exD (fun _ _ => (1 : Int)) .x (fun i => 10 + i) (fun _ => 0)
     (o (.ux, 0, 0), o (.ux, 0, 1), o (.ux, 1, 0), o (.ux, 1, 2)) = (0, 10, 12, 0)) ∧
    (let o := setAll exD (fun _ i => if i = 0 then (0 : Int) else 1) .lam (fun i => 10 + i) (fun _ => 0)
     Field.lam.flat exD o = [0, 11, 0, 13]) := by decide +kernel

/-! ### C57: resetting an iterate -/

/-- stage vectors of an iterate: length of vector `k` of a family, `0` if there is none -/
def vecLen (d : Dims) (f : Fam) (k : Nat) : Nat :=
  match f with
  | .ux => if k ≤ d.N then d.nu k + d.nx k + 2 * d.ns k else 0
  | .z => if k ≤ d.N then d.nz k else 0
  | .pi => if k < d.N then d.nx (k + 1) else 0
  | .lam => if k ≤ d.N then 2 * d.ni k else 0

/-- C57: after a reset every number of the iterate is zero. -/
theorem C57_reset_zero [Zero K] (pad : Nat → Nat) (d : Dims) (h : Nat → K) (f : Fam) (k i : Nat) (hi : i < vecLen d f k) :
    reset pad d h (start pad d f k + i) = 0 := by
  have hk : k < d.N + 1 := by
    cases f <;> (simp only [vecLen] at hi; split at hi <;> omega)
  refine reset_of_stage pad d k hk _ (fun h => ?_) h
  rw [resetStage]
  cases f with
  | ux =>
    rw [vecLen, if_pos (by omega)] at hi
    exact setZero_keep _ _ _ (setZero_keep _ _ _ (setZero_keep _ _ _ ((setZero_spec _ _ _).1 i hi)))
  | z =>
    rw [vecLen, if_pos (by omega)] at hi
    exact setZero_keep _ _ _ (setZero_keep _ _ _ ((setZero_spec _ _ _).1 i hi))
  | pi =>
    rw [vecLen] at hi
    split at hi
    case isFalse => omega
    case isTrue hN =>
      refine setZero_keep _ _ _ ?_
      rw [nxEntry, if_pos (by omega), piStart, if_pos hN]
      exact (setZero_spec _ _ _).1 i hi
  | lam =>
    rw [vecLen, if_pos (by omega)] at hi
    exact (setZero_spec _ _ _).1 i hi

theorem start_lt_size (pad : Nat → Nat) (hpad : ∀ n, n ≤ pad n) (d : Dims) (f : Fam) (k i : Nat) (hi : i < vecLen d f k) :
    start pad d f k + i < size pad d := by
  simp only [size, start]
  have hm := before_mono (fun k => pad (2 * d.ni k)) (Nat.zero_le (d.N + 1))
  cases f with
  | ux =>
    simp only [vecLen] at hi; split at hi
    case isFalse => omega
    have := before_block (fun k => pad (d.nu k + d.nx k + 2 * d.ns k)) (n := d.N + 1) (k := k) (by omega)
      (lt_of_lt_of_le hi (hpad _))
    simp only at this ⊢
    omega
  | z =>
    simp only [vecLen] at hi; split at hi
    case isFalse => omega
    have := before_block (fun k => pad (d.nz k)) (n := d.N + 1) (k := k) (by omega) (lt_of_lt_of_le hi (hpad _))
    simp only at this ⊢
    omega
  | pi =>
    simp only [vecLen] at hi; split at hi
    case isFalse => omega
    have := before_block (fun k => pad (d.nx (k + 1))) (n := d.N) (k := k) (by omega) (lt_of_lt_of_le hi (hpad _))
    simp only at this ⊢
    omega
  | lam =>
    simp only [vecLen] at hi; split at hi
    case isFalse => omega
    have := before_block (fun k => pad (2 * d.ni k)) (n := d.N + 1) (k := k) (by omega) (lt_of_lt_of_le hi (hpad _))
    simp only at this ⊢
    omega

/-- C57: a reset writes only inside the vectors of the iterate if, and only if, the first stage has no more inputs than
all inequality multipliers have room: the loop also clears a vector that does not exist. -/
theorem C57_reset_frame_iff [Zero K] [Nontrivial K] (pad : Nat → Nat) (hpad : ∀ n, n ≤ pad n) (d : Dims) :
    (∀ (h : Nat → K) (a : Nat), size pad d ≤ a → reset pad d h a = h a) ↔
      d.nu 0 ≤ ((List.range (d.N + 1)).map fun k => pad (2 * d.ni k)).sum := by
  have hsum : ∀ n, ((List.range n).map fun k => pad (2 * d.ni k)).sum = before (fun k => pad (2 * d.ni k)) n := by
    intro n
    induction n with
    | zero => rfl
    | succ n ih => rw [List.range_succ, List.map_append, List.sum_append, ih]; simp [before]
  have hsize : size pad d = start pad d .lam 0 + before (fun k => pad (2 * d.ni k)) (d.N + 1) := by
    simp only [size, start, before]; omega
  rw [hsum]
  constructor
  · intro h
    by_contra hc
    obtain ⟨v, hv⟩ := exists_ne (0 : K)
    refine hv ((h (fun _ => v) (size pad d) (Nat.le_refl _)).symm.trans ?_)
    refine reset_of_stage pad d d.N (by omega) _ (fun h => ?_) _
    rw [resetStage]
    refine setZero_keep _ _ _ ?_
    rw [nxEntry, if_neg (by omega), piStart, if_neg (by omega), Nat.sub_self, Nat.sub_self, hsize]
    exact (setZero_spec _ _ _).1 _ (by omega)
  · intro hle h a ha
    refine reset_frame pad d _ h a fun k hk h => ?_
    have hk : k ≤ d.N := by have := List.mem_range.1 hk; omega
    rw [resetStage]
    have f1 : ∀ i < d.nu k + d.nx k + 2 * d.ns k, a ≠ start pad d .ux k + i := fun i hi e => by
      have := start_lt_size pad hpad d .ux k i (by rw [vecLen, if_pos hk]; exact hi)
      omega
    have f2 : ∀ i < d.nz k, a ≠ start pad d .z k + i := fun i hi e => by
      have := start_lt_size pad hpad d .z k i (by rw [vecLen, if_pos hk]; exact hi)
      omega
    have f3 : ∀ i < nxEntry d (k + 1), a ≠ piStart pad d k + i := fun i hi e => by
      by_cases hN : k < d.N
      · rw [nxEntry, if_pos (by omega)] at hi
        rw [piStart, if_pos hN] at e
        have := start_lt_size pad hpad d .pi k i (by rw [vecLen, if_pos hN]; exact hi)
        omega
      · obtain rfl : k = d.N := by omega
        rw [nxEntry, if_neg (by omega), Nat.sub_self] at hi
        rw [piStart, if_neg hN, Nat.sub_self] at e
        omega
    have f4 : ∀ i < 2 * d.ni k, a ≠ start pad d .lam k + i := fun i hi e => by
      have := start_lt_size pad hpad d .lam k i (by rw [vecLen, if_pos hk]; exact hi)
      omega
    rw [(setZero_spec _ _ _).2 a f4, (setZero_spec _ _ _).2 a f3, (setZero_spec _ _ _).2 a f2, (setZero_spec _ _ _).2 a f1]

/-- C57 is false of the code: in a problem without inequality constraints a reset writes as many zeros as the first stage
has inputs after the end of the last vector. -/
theorem C57_reset_overrun [Zero K] [Nontrivial K] (pad : Nat → Nat) (hpad : ∀ n, n ≤ pad n) (h0 : pad 0 = 0) (d : Dims)
    (hni : ∀ k, d.ni k = 0) (hu : 0 < d.nu 0) : ∃ (h : Nat → K) (a : Nat), size pad d ≤ a ∧ reset pad d h a ≠ h a := by
  have := (not_iff_not.2 (C57_reset_frame_iff (K := K) pad hpad d)).2 (by
    have : ((List.range (d.N + 1)).map fun k => pad (2 * d.ni k)).sum = 0 :=
      List.sum_eq_zero_iff_forall_eq_nat.2 fun x hx => by
        obtain ⟨k, _, rfl⟩ := List.mem_map.1 hx
        rw [hni, Nat.mul_zero, h0]
    omega)
  push Not at this
  exact this

/-- a problem meeting the overrun hypotheses, and one where the reset stays inside -/
example : (let d : Dims := ⟨2, fun _ => 2, fun k => if k < 2 then 1 else 0, fun _ => 0, fun _ => 0, fun _ => 0⟩
    (∀ k, d.ni k = 0) ∧ 0 < d.nu 0 ∧ reset id d (fun _ => (7 : Int)) (size id d) = 0) ∧
    (let d : Dims := ⟨2, fun _ => 2, fun k => if k < 2 then 1 else 0, fun _ => 0, fun _ => 0, fun _ => 1⟩
     d.nu 0 ≤ ((List.range (d.N + 1)).map fun k => id (2 * d.ni k)).sum ∧
     reset id d (fun _ => (7 : Int)) (size id d) = 7) := by
  refine ⟨⟨fun _ => rfl, by decide, by decide +kernel⟩, by decide, by decide +kernel⟩

end Acados.Flat
