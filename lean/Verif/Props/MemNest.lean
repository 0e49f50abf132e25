import Verif.Model.MemNest
import Verif.Props.MemNlp
/-!
# C02 for objects inside objects
-/
namespace Acados.Mem

/-- natural alignment and size of the blocks carved by `ops`, in order -/
def blocks : List Op → List (Nat × Nat)
  | [] => []
  | .align _ :: t => blocks t
  | .alloc nat _ size :: t => (nat, size) :: blocks t

theorem blocks_align (a : Nat) (t : List Op) : blocks (.align a :: t) = blocks t := rfl
theorem blocks_struct (s : Nat) (t : List Op) : blocks (.struct s :: t) = (8, s) :: blocks t := rfl

/-- `C02` holds of every object of the tree on its own, and every object got (at least) the number of
bytes its `calculate_size` returned, at an 8-byte aligned place: `nat` and `len` are the guaranteed
alignment and the length of the block the layout is placed on. -/
def Layout.Fitted : Layout → Nat → Nat → Prop
  | .array, _, _ => True
  | .object ops size sub, nat, len =>
    8 ∣ nat ∧ size ≤ len ∧ Fits ops size ∧
      ∀ i b, (blocks ops)[i]? = some b → (sub i).Fitted b.1 b.2

theorem run_blocks : ∀ {ops : List Op} {p q : Nat} {rs : List Region}, run ops p = some (rs, q) →
    rs.map (fun r => (r.natural, r.size)) = blocks ops := by
  intro ops
  induction ops with
  | nil =>
    intro p q rs h
    rw [← (Prod.mk.inj (Option.some.inj h)).1]
    rfl
  | cons o t ih =>
    intro p q rs h
    cases o with
    | align a => exact ih h
    | alloc nat b s =>
      simp only [run] at h
      split at h
      · exact nomatch h
      · cases hr : run t (p + s) with
        | none => rw [hr] at h; exact nomatch h
        | some x =>
          obtain ⟨rs', q'⟩ := x
          rw [hr] at h
          rw [← (Prod.mk.inj (Option.some.inj h)).1, List.map_cons, ih hr]
          rfl

/-- the regions lie in the block `r`, are aligned and do not overlap -/
def Inside (r : Region) (as : List Region) : Prop :=
  (∀ a ∈ as, r.start ≤ a.start ∧ a.start + a.size ≤ r.start + r.size ∧ a.natural ∣ a.start) ∧
    as.Pairwise (fun a b => a.start + a.size ≤ b.start)

theorem collect_ok (f : Nat → Region → Option (List Region)) : ∀ (rs : List Region) (k : Nat),
    (∀ i r, rs[i]? = some r → ∃ as, f (k + i) r = some as ∧ Inside r as) →
    rs.Pairwise (fun r s => r.start + r.size ≤ s.start) →
    ∃ as, collect f k rs = some as ∧
      (∀ a ∈ as, ∃ r ∈ rs, r.start ≤ a.start ∧ a.start + a.size ≤ r.start + r.size ∧ a.natural ∣ a.start) ∧
      as.Pairwise (fun a b => a.start + a.size ≤ b.start) := by
  intro rs
  induction rs with
  | nil => intro k _ _; exact ⟨[], rfl, fun _ h => (nomatch h), List.Pairwise.nil⟩
  | cons r t ih =>
    intro k hf hp
    obtain ⟨as, ha, hin, hpa⟩ := hf 0 r rfl
    obtain ⟨hp1, hp2⟩ := List.pairwise_cons.1 hp
    obtain ⟨bs, hb, hbin, hpb⟩ := ih (k + 1) (fun i s h => by
      have := hf (i + 1) s h
      rwa [show k + (i + 1) = k + 1 + i by omega] at this) hp2
    refine ⟨as ++ bs, ?_, ?_, ?_⟩
    · rw [Nat.add_zero] at ha
      simp only [collect, ha, hb]
    · intro a h
      rcases List.mem_append.1 h with h | h
      · exact ⟨r, List.mem_cons_self, hin a h⟩
      · obtain ⟨s, hs, h'⟩ := hbin a h
        exact ⟨s, List.mem_cons_of_mem _ hs, h'⟩
    · rw [List.pairwise_append]
      refine ⟨hpa, hpb, fun a h b h' => ?_⟩
      obtain ⟨s, hs, hs1, _⟩ := hbin b h'
      have h1 := (hin a h).2.1
      have h2 := hp1 s hs
      omega

/-- **C02, nested objects**: if every object of a tree of objects has C02 on its own and gets a block of
its calculated size, then the assign functions of the whole tree run without an assertion failure inside
the buffer of the root, and all arrays of the whole tree are aligned and pairwise disjoint. -/
theorem C02_nested : ∀ (L : Layout) (r : Region), L.Fitted r.natural r.size → r.natural ∣ r.start →
    ∃ as, arrays L r = some as ∧ Inside r as := by
  intro L
  induction L with
  | array =>
    intro r _ hr
    refine ⟨[r], rfl, ?_, List.pairwise_singleton _ _⟩
    intro a h
    rw [List.mem_singleton.1 h]
    exact ⟨Nat.le_refl _, Nat.le_refl _, hr⟩
  | object ops size sub ih =>
    intro r hL hr
    obtain ⟨h8, hle, hfit, hsub⟩ := hL
    obtain ⟨rs, q, hrun, _, hin, hp⟩ := hfit r.start (Nat.dvd_trans h8 hr)
    have hb := run_blocks hrun
    obtain ⟨as, ha, hain, hpa⟩ := collect_ok (fun i s => arrays (sub i) s) rs 0 (fun i s hs => by
      rw [Nat.zero_add]
      have hbs : (blocks ops)[i]? = some (s.natural, s.size) := by
        rw [← hb, List.getElem?_map, hs]; rfl
      exact ih i s (hsub i _ hbs) (hin s (List.mem_of_getElem? hs)).2.2) hp
    refine ⟨as, ?_, fun a h => ?_, hpa⟩
    · simp only [arrays, hrun]; exact ha
    · obtain ⟨s, hs, h1, h2, h3⟩ := hain a h
      have := hin s hs
      exact ⟨by omega, by omega, h3⟩

/-! ## An instance: SQP memory with the NLP memory, the QP and its solution inside -/

/-- The memory of the SQP solver: second block is the NLP memory, in which the blocks of the QP data and
the QP solution are laid out by the QP layer (the other sub-objects are left as blocks). -/
def sqpLayout (B : Blasfeo) (sz szNlp sm sv : Nat) (e : Bool) (d : NlpD) (o : NlpMemO) (m : Mods)
    (inOps outOps : List Op) : Layout :=
  .object (sqpMemoryOps sz (nlpMemorySize B szNlp sm sv d o m) e o.maxIter)
    (sqpMemorySize sz (nlpMemorySize B szNlp sm sv d o m) e o.maxIter)
    (fun i => if i = 1 then
      .object (nlpMemoryOps B szNlp sm sv d o m) (nlpMemorySize B szNlp sm sv d o m)
        (fun j => if j = (if o.storeIterates then 5 else 4) then .object inOps o.qpIn (fun _ => .array)
          else if j = (if o.storeIterates then 6 else 5) then .object outOps o.qpOut (fun _ => .array)
          else .array)
      else .array)

theorem nlpMemory_blocks (B : Blasfeo) (sz sm sv : Nat) (d : NlpD) (o : NlpMemO) (m : Mods) :
    ∃ rest, blocks (nlpMemoryOps B sz sm sv d o m) =
      [(8, sz), (8, 8 * d.N), (8, 8 * (d.N + 1)), (8, 8 * (d.N + 1))]
        ++ (if o.storeIterates then [(8, 8 * (o.maxIter + 1))] else [])
        ++ [(8, o.qpIn), (8, o.qpOut)] ++ rest := by
  unfold nlpMemoryOps
  cases o.storeIterates <;>
    · simp only [Bool.false_eq_true, if_true, if_false, List.cons_append, List.nil_append,
        List.append_assoc, blocks_align, blocks_struct]
      exact ⟨_, rfl⟩

/-- **C02** the SQP memory as one tree: for any QP layer whose two objects have C02 on their own
(`C02_qp_in`, `C02_qp_out`), any dimensions and any option combination, all arrays of the SQP memory, the
NLP memory, the QP and the QP solution lie in the caller's buffer, aligned and disjoint. -/
theorem C02_sqp_memory_nested (B : Blasfeo) (sz szNlp sm sv : Nat) (e : Bool) (d : NlpD) (o : NlpMemO)
    (m : Mods) (inOps outOps : List Op) (hs : 8 ∣ sz) (hsn : 8 ∣ szNlp) (hsm : 8 ∣ sm) (hsv : 8 ∣ sv)
    (ho : o.OK) (hm : m.OK) (hin : Fits inOps o.qpIn) (hout : Fits outOps o.qpOut)
    (base : Nat) (hb : 8 ∣ base) :
    ∃ as, arrays (sqpLayout B sz szNlp sm sv e d o m inOps outOps)
        ⟨base, sqpMemorySize sz (nlpMemorySize B szNlp sm sv d o m) e o.maxIter, 8⟩ = some as ∧
      (∀ a ∈ as, base ≤ a.start ∧
        a.start + a.size ≤ base + sqpMemorySize sz (nlpMemorySize B szNlp sm sv d o m) e o.maxIter ∧
        a.natural ∣ a.start) ∧
      as.Pairwise (fun a b => a.start + a.size ≤ b.start) := by
  refine C02_nested _ _ ⟨Nat.dvd_refl 8, Nat.le_refl _, C02_sqp_memory _ _ _ _ hs
    (nlpMemorySize_dvd _ _ _ _ _ _ _), ?_⟩ hb
  intro i b hbl
  beta_reduce
  by_cases hi : i = 1
  · subst hi
    have e1 : b = (8, nlpMemorySize B szNlp sm sv d o m) := (Option.some.inj hbl).symm
    subst e1
    simp only [if_true]
    refine ⟨Nat.dvd_refl 8, Nat.le_refl _, C02_nlp_memory _ _ _ _ _ _ _ hsn hsm hsv ho hm, ?_⟩
    intro j c hc
    beta_reduce
    obtain ⟨rest, hrest⟩ := nlpMemory_blocks B szNlp sm sv d o m
    by_cases hj : j = if o.storeIterates then 5 else 4
    · rw [if_pos hj]
      have e2 : c = (8, o.qpIn) := by
        rw [hj] at hc
        cases hst : o.storeIterates <;>
          · simp only [hst, Bool.false_eq_true, if_true, if_false] at hc hrest
            rw [hrest] at hc
            exact (Option.some.inj hc).symm
      rw [e2]
      exact ⟨Nat.dvd_refl 8, Nat.le_refl _, hin, fun _ _ _ => trivial⟩
    · rw [if_neg hj]
      by_cases hj' : j = if o.storeIterates then 6 else 5
      · rw [if_pos hj']
        have e2 : c = (8, o.qpOut) := by
          rw [hj'] at hc
          cases hst : o.storeIterates <;>
            · simp only [hst, Bool.false_eq_true, if_true, if_false] at hc hrest
              rw [hrest] at hc
              exact (Option.some.inj hc).symm
        rw [e2]
        exact ⟨Nat.dvd_refl 8, Nat.le_refl _, hout, fun _ _ _ => trivial⟩
      · rw [if_neg hj']
        trivial
  · rw [if_neg hi]
    trivial

/-- a two-level example: a block of 64 bytes holding a struct and 5 doubles, inside a 128 byte buffer
behind another struct -/
example : arrays (.object [.struct 24, .struct 64, .ints 3] 100
      (fun i => if i = 1 then .object [.struct 16, .doubles 5] 56 (fun _ => .array) else .array)) ⟨8, 104, 8⟩
    = some [⟨8, 24, 8⟩, ⟨32, 16, 8⟩, ⟨48, 40, 8⟩, ⟨96, 12, 4⟩] := rfl

example : Layout.Fitted (.object [.struct 24, .struct 64, .ints 3] 100
      (fun i => if i = 1 then .object [.struct 16, .doubles 5] 56 (fun _ => .array) else .array)) 8 104 := by
  refine ⟨by decide, by decide, fits_of _ _ ?_ (by decide), ?_⟩
  · mem_al
  · intro i b hb
    beta_reduce
    by_cases hi : i = 1
    · subst hi
      have e : b = (8, 64) := (Option.some.inj hb).symm
      subst e
      exact ⟨by decide, by decide, fits_of _ _ (by mem_al) (by decide), fun _ _ _ => trivial⟩
    · rw [if_neg hi]; trivial

end Acados.Mem
