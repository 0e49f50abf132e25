import Verif.Spec.Bgh
import Mathlib.Tactic.Ring
import Mathlib.Tactic.Linarith
/-! helper lemmas for the stage constraints -/
namespace Acados.Bgh
open Finset

section
variable {D : Type*}

/-- relation between the windows of two fields: unrelated fields do not overlap -/
theorem window_none (dm : Dims) (f g : VF) (v : Nat → D) (hm : f.Meaningful dm)
    (h : (Write.vec g v).valueOf dm f = none) (i j : Nat) (hi : i < f.len dm) (hj : j < g.len dm) :
    f.off dm + i ≠ g.off dm + j := by
  cases g <;> cases f <;>
    simp only [VF.Meaningful, VF.off, VF.len, Dims.nb, Dims.nsDerived, Write.valueOf, reduceCtorEq,
      if_true, if_false] at hm hi hj h ⊢ <;> omega

theorem window_some (dm : Dims) (f g : VF) (v v' : Nat → D) (hm : f.Meaningful dm)
    (h : (Write.vec g v).valueOf dm f = some v') (i : Nat) (hi : i < f.len dm) :
    g.off dm ≤ f.off dm + i ∧ f.off dm + i < g.off dm + g.len dm ∧
      v' i = v (f.off dm + i - g.off dm) ∧ f.upper = g.upper := by
  cases g <;> cases f <;>
    simp only [VF.Meaningful, VF.off, VF.len, Dims.nb, Dims.nsDerived, Write.valueOf, reduceCtorEq,
      if_true, if_false, Option.some.injEq, VF.upper] at hm hi h ⊢ <;> subst h <;>
    exact ⟨by omega, by omega, congrArg v (by omega), trivial⟩

variable [LE D] [DecidableLE D] [NatCast D] [Neg D]

/-- mask entry that belongs to a bound value -/
def maskOf (up : Bool) (x : D) : D :=
  if up then (if infty ≤ x then ((0 : Nat) : D) else ((1 : Nat) : D))
  else (if x ≤ -infty then ((0 : Nat) : D) else ((1 : Nat) : D))

theorem set_d_mask (dm : Dims) (m : Model D) (w : Write D) (f : VF) (hm : f.Meaningful dm) (i : Nat)
    (hi : i < f.len dm) :
    (set dm m w).d (f.off dm + i) =
      ((w.valueOf dm f).getD (fun i => m.d (f.off dm + i))) i ∧
    (set dm m w).dmask (f.off dm + i) =
      ((w.valueOf dm f).map (fun v i => maskOf f.upper (v i))).getD (fun i => m.dmask (f.off dm + i)) i := by
  cases w with
  | vec g v =>
    rcases hv : (Write.vec g v).valueOf dm f with _ | v'
    · have hw : ¬ (g.off dm ≤ f.off dm + i ∧ f.off dm + i < g.off dm + g.len dm) := by
        rintro ⟨h1, h2⟩
        exact window_none dm f g v hm hv i (f.off dm + i - g.off dm) hi (by omega) (by omega)
      simp only [set, setVec, packVec, updateMaskLower, updateMaskUpper, hw, if_false]
      constructor
      · rfl
      · cases g.upper <;> simp [updateMaskLower, updateMaskUpper, packVec, hw]
    · obtain ⟨h1, h2, h3, h4⟩ := window_some dm f g v v' hm hv i hi
      have hw : g.off dm ≤ f.off dm + i ∧ f.off dm + i < g.off dm + g.len dm := ⟨h1, h2⟩
      simp only [set, setVec, packVec, updateMaskLower, updateMaskUpper, Option.getD_some,
        Option.map_some, h3, h4, maskOf]
      constructor
      · rw [if_pos hw]
      · cases g.upper <;> simp [updateMaskLower, updateMaskUpper, packVec, hw]
  | int g v => cases g <;> simp [set, setInt, Write.valueOf]
  | idxsRev v => simp [set, Write.valueOf]
  | C v => simp [set, Write.valueOf]
  | D v => simp [set, Write.valueOf]

theorem lastVec_cons (dm : Dims) (f : VF) (v0 : Nat → D) (w : Write D) (ws : List (Write D)) :
    lastVec dm f v0 (w :: ws) = lastVec dm f ((w.valueOf dm f).getD v0) ws := rfl

/-- `lastVec` at an index depends only on the initial value at that index -/
theorem lastVec_congr (dm : Dims) (f : VF) (i : Nat) (ws : List (Write D)) :
    ∀ v0 v1 : Nat → D, v0 i = v1 i → lastVec dm f v0 ws i = lastVec dm f v1 ws i := by
  induction ws with
  | nil => intro v0 v1 h; exact h
  | cons w ws ih =>
    intro v0 v1 h
    rw [lastVec_cons, lastVec_cons]
    apply ih
    cases w.valueOf dm f <;> simp [h]

theorem setAll_d (dm : Dims) (f : VF) (hm : f.Meaningful dm) (i : Nat) (hi : i < f.len dm)
    (ws : List (Write D)) : ∀ m : Model D,
    (setAll dm m ws).d (f.off dm + i) = lastVec dm f (fun i => m.d (f.off dm + i)) ws i := by
  induction ws with
  | nil => intro m; rfl
  | cons w ws ih =>
    intro m
    show (setAll dm (set dm m w) ws).d _ = _
    rw [ih, lastVec_cons]
    apply lastVec_congr
    rw [(set_d_mask dm m w f hm i hi).1]

/-- the mask always belongs to the stored bound -/
theorem setAll_mask (dm : Dims) (f : VF) (hm : f.Meaningful dm) (i : Nat) (hi : i < f.len dm)
    (ws : List (Write D)) : ∀ m : Model D,
    m.dmask (f.off dm + i) = maskOf f.upper (m.d (f.off dm + i)) →
    (setAll dm m ws).dmask (f.off dm + i) = maskOf f.upper ((setAll dm m ws).d (f.off dm + i)) := by
  induction ws with
  | nil => intro m h; exact h
  | cons w ws ih =>
    intro m h
    show (setAll dm (set dm m w) ws).dmask _ = _
    apply ih
    obtain ⟨h1, h2⟩ := set_d_mask dm m w f hm i hi
    rw [h1, h2]
    cases w.valueOf dm f <;> simp [h]

/-! ### integer and matrix fields -/

/-- entry `i` of an integer field as stored -/
def readInt (dm : Dims) (m : Model D) : IF → Nat → Int
  | .idxbu, i => m.idxb i
  | .idxbx, i => m.idxb (dm.nbu + i) - dm.nu
  | .idxsbu, i => m.idxs i
  | .idxsbx, i => m.idxs (dm.nsbu + i) - dm.nbu
  | .idxsg, i => m.idxs (dm.nsbu + dm.nsbx + i) - (dm.nbu + dm.nbx)
  | .idxsh, i => m.idxs (dm.nsbu + dm.nsbx + dm.nsg + i) - (dm.nbu + dm.nbx + dm.ng)
  | .idxbue, i => m.idxe i
  | .idxbxe, i => m.idxe (dm.nbue + i) - dm.nbu
  | .idxge, i => m.idxe (dm.nbue + dm.nbxe + i) - (dm.nbu + dm.nbx)
  | .idxhe, i => m.idxe (dm.nbue + dm.nbxe + dm.nge + i) - (dm.nbu + dm.nbx + dm.ng)

def IF.len (dm : Dims) : IF → Nat
  | .idxbu => dm.nbu | .idxbx => dm.nbx | .idxsbu => dm.nsbu | .idxsbx => dm.nsbx | .idxsg => dm.nsg
  | .idxsh => dm.nsh | .idxbue => dm.nbue | .idxbxe => dm.nbxe | .idxge => dm.nge | .idxhe => dm.nhe

theorem readInt_set (dm : Dims) (m : Model D) (w : Write D) (f : IF) (i : Nat) (hi : i < f.len dm) :
    readInt dm (set dm m w) f i =
      match w with
      | .int g v => if f = g then v i else readInt dm m f i
      | _ => readInt dm m f i := by
  cases w with
  | int g v =>
    cases g <;> cases f <;> simp only [IF.len] at hi <;>
      simp only [set, setInt, readInt, packVec, reduceCtorEq, if_true, if_false] <;>
      first
      | rfl
      | (rw [if_neg (by omega)])
      | (rw [if_pos (by omega)]
         simp only [Nat.add_sub_cancel_left, Nat.sub_zero]
         try omega)
  | vec g v => cases f <;> rfl
  | idxsRev v => cases f <;> rfl
  | C v => cases f <;> rfl
  | D v => cases f <;> rfl

theorem lastInt_congr (f : IF) (i : Nat) (ws : List (Write D)) :
    ∀ v0 v1 : Nat → Int, v0 i = v1 i → lastInt f v0 ws i = lastInt f v1 ws i := by
  induction ws with
  | nil => intro v0 v1 h; exact h
  | cons w ws ih =>
    intro v0 v1 h
    apply ih
    cases w with
    | int g v => simp only; split <;> simp [h]
    | _ => exact h

theorem readInt_setAll (dm : Dims) (f : IF) (i : Nat) (hi : i < f.len dm) (ws : List (Write D)) :
    ∀ m : Model D, readInt dm (setAll dm m ws) f i = lastInt f (readInt dm m f) ws i := by
  induction ws with
  | nil => intro m; rfl
  | cons w ws ih =>
    intro m
    show readInt dm (setAll dm (set dm m w) ws) f i = _
    rw [ih]
    apply lastInt_congr
    rw [readInt_set dm m w f i hi]
    cases w with
    | int g v => simp only; split <;> rfl
    | _ => rfl

theorem rev_setAll (dm : Dims) (i : Nat) (hi : i < dm.ni) (ws : List (Write D)) :
    ∀ m : Model D, (setAll dm m ws).idxsRev i = lastRev m.idxsRev ws i := by
  suffices H : ∀ (m : Model D) (v : Nat → Int), v i = m.idxsRev i →
      (setAll dm m ws).idxsRev i = lastRev v ws i from fun m => H m _ rfl
  induction ws with
  | nil => intro m v h; exact h.symm
  | cons w ws ih =>
    intro m v h
    show (setAll dm (set dm m w) ws).idxsRev i = _
    apply ih
    cases w with
    | int g v => cases g <;> exact h
    | vec g v => exact h
    | idxsRev v' =>
      have : i < dm.nb + dm.ng + dm.nh := hi
      simp [set, packVec, this]
    | C v => exact h
    | D v => exact h

theorem useRev_setAll (dm : Dims) (ws : List (Write D)) : ∀ m : Model D,
    (setAll dm m ws).useIdxsRev = true ↔ m.useIdxsRev = true ∨ usesRev ws := by
  induction ws with
  | nil => intro m; simp [setAll, usesRev]
  | cons w ws ih =>
    intro m
    show (setAll dm (set dm m w) ws).useIdxsRev = true ↔ _
    rw [ih]
    cases w with
    | int g v => cases g <;> simp [set, setInt, usesRev]
    | vec g v => simp [set, setVec, usesRev]
    | idxsRev v' =>
      simp only [set, true_or, usesRev, List.mem_cons, true_iff]
      exact Or.inr ⟨v', Or.inl rfl⟩
    | C v => simp [set, usesRev]
    | D v => simp [set, usesRev]

theorem mats_setAll (dm : Dims) (i j : Nat) (hj : j < dm.ng) (ws : List (Write D)) : ∀ m : Model D,
    (i < dm.nx → (setAll dm m ws).DCt (dm.nu + i) j = lastC (getC dm m) ws j i) ∧
    (i < dm.nu → (setAll dm m ws).DCt i j = lastD (getD m) ws j i) := by
  suffices H : ∀ (m : Model D) (v v2 : Nat → Nat → D), (i < dm.nx → v j i = m.DCt (dm.nu + i) j) →
      (i < dm.nu → v2 j i = m.DCt i j) →
      (i < dm.nx → (setAll dm m ws).DCt (dm.nu + i) j = lastC v ws j i) ∧
      (i < dm.nu → (setAll dm m ws).DCt i j = lastD v2 ws j i) from
    fun m => H m _ _ (fun _ => rfl) (fun _ => rfl)
  induction ws with
  | nil => intro m v v2 h h2; exact ⟨fun hi => (h hi).symm, fun hi => (h2 hi).symm⟩
  | cons w ws ih =>
    intro m v v2 h h2
    show (_ → (setAll dm (set dm m w) ws).DCt (dm.nu + i) j = _) ∧
      (_ → (setAll dm (set dm m w) ws).DCt i j = _)
    apply ih
    · intro hi
      cases w with
      | int g v => cases g <;> exact h hi
      | vec g v => exact h hi
      | idxsRev v' => exact h hi
      | C v' => simp [set, packTran, hi, hj]
      | D v' =>
        have : ¬ dm.nu + i < dm.nu := by omega
        simp [set, packTran, h hi]
    · intro hi
      cases w with
      | int g v => cases g <;> exact h2 hi
      | vec g v => exact h2 hi
      | idxsRev v' => exact h2 hi
      | C v' =>
        have : ¬ dm.nu ≤ i := by omega
        simp [set, packTran, this, h2 hi]
      | D v' => simp [set, packTran, hi, hj]

end

/-! ### evaluation -/

section
variable {K : Type*} [Field K] [LinearOrder K] [IsStrictOrderedRing K]

theorem lower_row {lo v r mk : K} (h : mk = maskOf false lo) :
    (lo - v - r) * mk ≤ 0 ↔ LowerOk lo (v + r) := by
  unfold LowerOk
  have e : (infty : K) = 10000000000 := by norm_num [infty]
  simp only [maskOf, e, Bool.false_eq_true, if_true, if_false] at h
  split at h
  · subst h; simp only [Nat.cast_zero, mul_zero, le_refl, true_iff]
    intro hlt; exact absurd hlt (not_lt.2 ‹_›)
  · subst h; simp only [Nat.cast_one, mul_one]
    have hlt : -10000000000 < lo := not_le.1 ‹_›
    constructor
    · intro h _; linarith
    · intro h; have := h hlt; linarith

theorem upper_row {up v r mk : K} (h : mk = maskOf true up) :
    (v - up - r) * mk ≤ 0 ↔ UpperOk up (v - r) := by
  unfold UpperOk
  have e : (infty : K) = 10000000000 := by norm_num [infty]
  simp only [maskOf, e, Bool.false_eq_true, if_true, if_false] at h
  split at h
  · subst h; simp only [Nat.cast_zero, mul_zero, le_refl, true_iff]
    intro hlt; exact absurd hlt (not_lt.2 ‹_›)
  · subst h; simp only [Nat.cast_one, mul_one]
    have hlt : up < 10000000000 := not_le.1 ‹_›
    constructor
    · intro h _; linarith
    · intro h; have := h hlt; linarith

theorem forall_lt_add {P : Nat → Prop} (a b : Nat) :
    (∀ i < a + b, P i) ↔ (∀ i < a, P i) ∧ (∀ i < b, P (a + i)) := by
  constructor
  · intro h; exact ⟨fun i hi => h i (by omega), fun i hi => h _ (by omega)⟩
  · rintro ⟨h1, h2⟩ i hi
    by_cases hia : i < a
    · exact h1 i hia
    · have := h2 (i - a) (by omega)
      rwa [show a + (i - a) = i by omega] at this

end

section
variable {K : Type*} [Field K]

/-- relaxation of the lower / upper side of row `i` -/
def relaxL (dm : Dims) (m : Model K) (rev : Nat → Int) (ux : Nat → K) (i : Nat) : K :=
  if m.useIdxsRev then relaxByRev rev (fun k => ux (dm.nu + dm.nx + k)) i
  else relaxByIdxs dm.ns m.idxs (fun k => ux (dm.nu + dm.nx + k)) i
def relaxU (dm : Dims) (m : Model K) (rev : Nat → Int) (ux : Nat → K) (i : Nat) : K :=
  if m.useIdxsRev then relaxByRev rev (fun k => ux (dm.nu + dm.nx + dm.ns + k)) i
  else relaxByIdxs dm.ns m.idxs (fun k => ux (dm.nu + dm.nx + dm.ns + k)) i

omit [Field K] in
theorem at'_add (x : Nat → K) (n : Nat) (z : Int) (h : 0 ≤ z) : at' x (n + z) = x (n + z.toNat) := by
  unfold at'; congr 1; omega

theorem fun_lower (dm : Dims) (m : Model K) (rev : Nat → Int) (hv : ValidMaps dm m rev) (ux c : Nat → K)
    (i : Nat) (hi : i < dm.ni) :
    funOf dm m rev ux c i = (m.d i - c i - relaxL dm m rev ux i) * m.dmask i := by
  have h2 : i < 2 * dm.ni := by omega
  simp only [funOf, h2, if_true, subSlacks, relaxL]
  cases hr : m.useIdxsRev
  · simp only [Bool.false_eq_true, if_false, vecadSp, relaxByIdxs, hi, if_true]
    have e1 : ∑ k ∈ range dm.ns, (if (i : Int) = ((0 : Nat) : Int) + m.idxs k then
          -1 * ux (dm.nu + dm.nx + k) else 0)
        = - ∑ k ∈ range dm.ns, if m.idxs k = (i : Int) then ux (dm.nu + dm.nx + k) else 0 := by
      rw [← sum_neg_distrib]
      refine sum_congr rfl fun k hk => ?_
      simp only [Nat.cast_zero, zero_add, eq_comm (a := (i : Int))]
      split <;> simp
    have e2 : ∑ k ∈ range dm.ns, (if (i : Int) = (dm.ni : Int) + m.idxs k then
          -1 * ux (dm.nu + dm.nx + dm.ns + k) else 0) = 0 := by
      refine sum_eq_zero fun k hk => ?_
      have := hv.idxs hr k (mem_range.1 hk)
      rw [if_neg (by omega)]
    rw [e1, e2]; ring
  · simp only [if_true, hi, relaxByRev]
    split
    · next h =>
      rw [← Nat.cast_add, at'_add _ _ _ h]
    · ring

theorem fun_upper (dm : Dims) (m : Model K) (rev : Nat → Int) (hv : ValidMaps dm m rev) (ux c : Nat → K)
    (i : Nat) (hi : i < dm.ni) :
    funOf dm m rev ux c (dm.ni + i) =
      (c i - m.d (dm.ni + i) - relaxU dm m rev ux i) * m.dmask (dm.ni + i) := by
  have h2 : dm.ni + i < 2 * dm.ni := by omega
  have h3 : ¬ dm.ni + i < dm.ni := by omega
  simp only [funOf, h2, if_true, subSlacks, relaxU]
  cases hr : m.useIdxsRev
  · simp only [Bool.false_eq_true, if_false, vecadSp, relaxByIdxs, h3, Nat.add_sub_cancel_left]
    have e1 : ∑ k ∈ range dm.ns, (if ((dm.ni + i : Nat) : Int) = ((0 : Nat) : Int) + m.idxs k then
          -1 * ux (dm.nu + dm.nx + k) else 0) = 0 := by
      refine sum_eq_zero fun k hk => ?_
      have := hv.idxs hr k (mem_range.1 hk)
      rw [if_neg (by omega)]
    have e2 : ∑ k ∈ range dm.ns, (if ((dm.ni + i : Nat) : Int) = (dm.ni : Int) + m.idxs k then
          -1 * ux (dm.nu + dm.nx + dm.ns + k) else 0)
        = - ∑ k ∈ range dm.ns, if m.idxs k = (i : Int) then ux (dm.nu + dm.nx + dm.ns + k) else 0 := by
      rw [← sum_neg_distrib]
      refine sum_congr rfl fun k hk => ?_
      by_cases h : m.idxs k = (i : Int)
      · rw [if_pos h, if_pos (by omega)]; ring
      · rw [if_neg h, if_neg (by omega)]; ring
    rw [e1, e2]; ring
  · simp only [if_true, h3, h2, if_false, Nat.add_sub_cancel_left, relaxByRev]
    split
    · next h =>
      rw [← Nat.cast_add, ← Nat.cast_add, at'_add _ _ _ h]
    · ring

theorem fun_slack (dm : Dims) (m : Model K) (rev : Nat → Int) (ux c : Nat → K) (k : Nat) :
    funOf dm m rev ux c (2 * dm.ni + k) =
      (m.d (2 * dm.ni + k) - ux (dm.nu + dm.nx + k)) * m.dmask (2 * dm.ni + k) := by
  have h : ¬ 2 * dm.ni + k < 2 * dm.ni := by omega
  simp only [funOf, h, if_false, Nat.add_sub_cancel_left]

end
end Acados.Bgh
