import Verif.Lemmas.BghAdj
import Mathlib.Tactic.Tauto
import Mathlib.Tactic.NormNum
/-!
# Properties C03 - C08: stage constraints
-/
namespace Acados.Bgh
open Finset

/-! ## C03: fields read back what was last written -/

section
variable {D : Type*} [LE D] [DecidableLE D] [NatCast D] [Neg D]

theorem getVec_eq (dm : Dims) (m : Model D) (f : VF) (r : Nat → D) (h : getVec dm m f = some r) :
    f.Meaningful dm ∧ r = (fun i => m.d (f.off dm + i)) ∧
      ∀ m' : Model D, getVec dm m' f = some fun i => m'.d (f.off dm + i) := by
  cases f <;> simp only [getVec, reduceCtorEq, Option.some.injEq] at h <;> subst h <;>
    refine ⟨trivial, ?_, fun m' => ?_⟩ <;>
    simp only [VF.off, getVec, Option.some.injEq] <;> funext i <;> congr 1 <;> omega

/-- **C03**, bounds.  Every bound field that can be read returns, after any history of writes to any
fields, the value last written to it (or the value it had before the history). -/
theorem C03_vector_fields (dm : Dims) (m : Model D) (ws : List (Write D)) (f : VF) (r : Nat → D)
    (h : getVec dm (setAll dm m ws) f = some r) :
    ∃ r0, getVec dm m f = some r0 ∧ ∀ i < f.len dm, r i = lastVec dm f r0 ws i := by
  obtain ⟨hm, hr, hg⟩ := getVec_eq dm _ f r h
  refine ⟨_, hg m, fun i hi => ?_⟩
  rw [hr]
  exact setAll_d dm f hm i hi ws m

/-- The eight bound fields are readable. -/
theorem C03_readable (dm : Dims) (m : Model D) (f : VF)
    (h : f = .lbu ∨ f = .ubu ∨ f = .lbx ∨ f = .ubx ∨ f = .lg ∨ f = .ug ∨ f = .lh ∨ f = .uh) :
    ∃ r, getVec dm m f = some r := by
  rcases h with h | h | h | h | h | h | h | h <;> subst h <;> exact ⟨_, rfl⟩

/-- **C03**, index lists: `idxbu`, `idxbx` read back what was last written; the stacked list `idxs`
consists of what was last written to the four groups, shifted to the group's first row. -/
theorem C03_index_fields (dm : Dims) (m : Model D) (ws : List (Write D)) :
    (∀ i < dm.nbu, getIdxbu (setAll dm m ws) i = lastInt .idxbu (getIdxbu m) ws i) ∧
    (∀ i < dm.nbx, getIdxbx dm (setAll dm m ws) i = lastInt .idxbx (getIdxbx dm m) ws i) ∧
    (∀ i < dm.nsbu, getIdxs (setAll dm m ws) i = lastInt .idxsbu (fun i => getIdxs m i) ws i) ∧
    (∀ i < dm.nsbx, getIdxs (setAll dm m ws) (dm.nsbu + i) =
      dm.nbu + lastInt .idxsbx (fun i => getIdxs m (dm.nsbu + i) - dm.nbu) ws i) ∧
    (∀ i < dm.nsg, getIdxs (setAll dm m ws) (dm.nsbu + dm.nsbx + i) =
      dm.nbu + dm.nbx + lastInt .idxsg
        (fun i => getIdxs m (dm.nsbu + dm.nsbx + i) - (dm.nbu + dm.nbx)) ws i) ∧
    (∀ i < dm.nsh, getIdxs (setAll dm m ws) (dm.nsbu + dm.nsbx + dm.nsg + i) =
      dm.nbu + dm.nbx + dm.ng + lastInt .idxsh
        (fun i => getIdxs m (dm.nsbu + dm.nsbx + dm.nsg + i) - (dm.nbu + dm.nbx + dm.ng)) ws i) := by
  refine ⟨fun i hi => readInt_setAll dm .idxbu i hi ws m, fun i hi => ?_,
    fun i hi => readInt_setAll dm .idxsbu i hi ws m, fun i hi => ?_, fun i hi => ?_, fun i hi => ?_⟩
  · have := readInt_setAll dm .idxbx i hi ws m
    simp only [readInt] at this
    simp only [getIdxbx, Nat.add_comm i]
    rw [this]
    exact lastInt_congr _ _ _ _ _ (by simp [getIdxbx, Nat.add_comm i, readInt])
  · have := readInt_setAll dm .idxsbx i hi ws m
    have e : readInt dm m .idxsbx = fun i => m.idxs (dm.nsbu + i) - dm.nbu := rfl
    rw [e] at this
    simp only [readInt] at this
    simp only [getIdxs]; omega
  · have := readInt_setAll dm .idxsg i hi ws m
    have e : readInt dm m .idxsg = fun i => m.idxs (dm.nsbu + dm.nsbx + i) - (dm.nbu + dm.nbx) := rfl
    rw [e] at this
    simp only [readInt] at this
    simp only [getIdxs]; omega
  · have := readInt_setAll dm .idxsh i hi ws m
    have e : readInt dm m .idxsh = fun i => m.idxs (dm.nsbu + dm.nsbx + dm.nsg + i) - (dm.nbu + dm.nbx + dm.ng) := rfl
    rw [e] at this
    simp only [readInt] at this
    simp only [getIdxs]; omega

/-- **C03**, matrices: `C`, `D` and their transposes read back what was last written. -/
theorem C03_matrix_fields (dm : Dims) (m : Model D) (ws : List (Write D)) (j : Nat) (hj : j < dm.ng) :
    (∀ i < dm.nx, getC dm (setAll dm m ws) j i = lastC (getC dm m) ws j i ∧
      getCt dm (setAll dm m ws) i j = lastC (getC dm m) ws j i) ∧
    (∀ i < dm.nu, getD (setAll dm m ws) j i = lastD (getD m) ws j i ∧
      getDt (setAll dm m ws) i j = lastD (getD m) ws j i) :=
  ⟨fun i hi => ⟨(mats_setAll dm i j hj ws m).1 hi, (mats_setAll dm i j hj ws m).1 hi⟩,
   fun i hi => ⟨(mats_setAll dm i j hj ws m).2 hi, (mats_setAll dm i j hj ws m).2 hi⟩⟩

/-- **C03**, memory safety: when the slack groups do not exceed `ns`, no write touches anything beyond
the allocated lengths `2*(nb+ng+nh+ns)` of the bound vector and its mask, `nb`, `ns`, `nb+ng+nh`,
`nbue+nbxe+nge+nhe` of the index lists and `(nu+nx) × ng` of the matrix. -/
theorem C03_writes_in_bounds (dm : Dims) (hs : dm.nsDerived ≤ dm.ns) (m : Model D) (w : Write D) :
    (∀ i, 2 * (dm.ni + dm.ns) ≤ i → (set dm m w).d i = m.d i ∧ (set dm m w).dmask i = m.dmask i) ∧
    (∀ i, dm.nb ≤ i → (set dm m w).idxb i = m.idxb i) ∧
    (∀ i, dm.ns ≤ i → (set dm m w).idxs i = m.idxs i) ∧
    (∀ i, dm.ni ≤ i → (set dm m w).idxsRev i = m.idxsRev i) ∧
    (∀ i, dm.nbue + dm.nbxe + dm.nge + dm.nhe ≤ i → (set dm m w).idxe i = m.idxe i) ∧
    (∀ r c, dm.nu + dm.nx ≤ r ∨ dm.ng ≤ c → (set dm m w).DCt r c = m.DCt r c) := by
  unfold Dims.nsDerived at hs
  cases w with
  | vec g v =>
    refine ⟨fun i hi => ?_, fun _ _ => rfl, fun _ _ => rfl, fun _ _ => rfl, fun _ _ => rfl,
      fun _ _ _ => rfl⟩
    have hw : ¬ (g.off dm ≤ i ∧ i < g.off dm + g.len dm) := by
      unfold Dims.ni at hi
      cases g <;> simp only [VF.off, VF.len, Dims.nb] at hi ⊢ <;> omega
    constructor
    · simp only [set, setVec, packVec, hw, if_false]
    · simp only [set, setVec]
      cases g.upper <;> simp [updateMaskLower, updateMaskUpper, hw]
  | int g v =>
    refine ⟨fun i hi => ?_, fun i hi => ?_, fun i hi => ?_, fun i hi => ?_, fun i hi => ?_,
      fun r c h => ?_⟩
    · cases g <;> exact ⟨rfl, rfl⟩
    · unfold Dims.nb at hi
      cases g <;> first | rfl | (simp only [set, setInt, packVec]; rw [if_neg (by omega)])
    · cases g <;> first | rfl | (simp only [set, setInt, packVec]; rw [if_neg (by omega)])
    · cases g <;> rfl
    · cases g <;> first | rfl | (simp only [set, setInt, packVec]; rw [if_neg (by omega)])
    · cases g <;> rfl
  | idxsRev v =>
    refine ⟨fun _ _ => ⟨rfl, rfl⟩, fun _ _ => rfl, fun _ _ => rfl, fun i hi => ?_, fun _ _ => rfl,
      fun _ _ _ => rfl⟩
    simp only [set, packVec]
    unfold Dims.ni at hi
    rw [if_neg (by omega)]
  | C v =>
    refine ⟨fun _ _ => ⟨rfl, rfl⟩, fun _ _ => rfl, fun _ _ => rfl, fun _ _ => rfl, fun _ _ => rfl,
      fun r c h => ?_⟩
    simp only [set, packTran]
    rw [if_neg (by omega)]
  | D v =>
    refine ⟨fun _ _ => ⟨rfl, rfl⟩, fun _ _ => rfl, fun _ _ => rfl, fun _ _ => rfl, fun _ _ => rfl,
      fun r c h => ?_⟩
    simp only [set, packTran]
    rw [if_neg (by omega)]

end

/-- Without that condition a write can land outside: `nsh = 1` but `ns = 0`; setting `idxsh` stores into
an array of length zero.  `precompute` rejects such dimensions only later. -/
theorem C03_inconsistent_slack_dims_out_of_bounds :
    ∃ (dm : Dims) (m : Model Rat) (w : Write Rat) (i : Nat), dm.ns ≤ i ∧ (set dm m w).idxs i ≠ m.idxs i :=
  ⟨⟨0, 0, 0, 0, 0, 0, 1, 0, 0, 0, 0, 1, 0, 0, 0, 0⟩,
   ⟨fun _ => 0, fun _ => 0, fun _ => 0, fun _ => 0, fun _ => 0, fun _ => 1, fun _ _ => 0, false⟩,
   .int .idxsh (fun _ => 7), 0, by decide, by decide⟩

/-! ## C04: bounds at or beyond ±1e10 are switched off -/

/-- The value of a bound field after a history starting from a fresh model. -/
theorem fresh_d {D : Type*} [LE D] [DecidableLE D] [NatCast D] [Neg D] (dm : Dims) (m : Model D)
    (hf : m.Fresh) (ws : List (Write D)) (f : VF) (hm : f.Meaningful dm) (i : Nat) (hi : i < f.len dm) :
    (setAll dm m ws).d (f.off dm + i) = lastVec dm f (fun _ => ((0 : Nat) : D)) ws i := by
  rw [setAll_d dm f hm i hi]
  exact lastVec_congr _ _ _ _ _ _ (hf.1 _)

theorem fresh_mask {D : Type*} [LE D] [DecidableLE D] [NatCast D] [Neg D]
    (h0l : ¬ ((0 : Nat) : D) ≤ -infty) (h0u : ¬ infty ≤ ((0 : Nat) : D)) (dm : Dims) (m : Model D)
    (hf : m.Fresh) (ws : List (Write D)) (f : VF) (hm : f.Meaningful dm) (i : Nat) (hi : i < f.len dm) :
    (setAll dm m ws).dmask (f.off dm + i) =
      maskOf f.upper (lastVec dm f (fun _ => ((0 : Nat) : D)) ws i) := by
  rw [← fresh_d dm m hf ws f hm i hi]
  apply setAll_mask dm f hm i hi
  rw [hf.1, hf.2.1]
  unfold maskOf
  cases f.upper <;> simp [h0l, h0u]

/-- **C04**, exact numbers: after any history the mask of a lower bound (or slack bound) is `0` iff its
last written value is at most `-1e10`, else `1`; the mask of an upper bound is `0` iff its last written
value is at least `1e10`, else `1`. -/
theorem C04_mask {K : Type*} [Field K] [LinearOrder K] [IsStrictOrderedRing K] (dm : Dims) (m : Model K)
    (hf : m.Fresh) (ws : List (Write K)) (f : VF) (hm : f.Meaningful dm) (i : Nat) (hi : i < f.len dm) :
    (setAll dm m ws).dmask (f.off dm + i) =
      if f.upper then (if 10000000000 ≤ lastVec dm f (fun _ => 0) ws i then 0 else 1)
      else (if lastVec dm f (fun _ => 0) ws i ≤ -10000000000 then 0 else 1) := by
  have e : (infty : K) = 10000000000 := by norm_num [infty]
  have h := fresh_mask (D := K) (by rw [e]; norm_num) (by rw [e]; norm_num) dm m hf ws f hm i hi
  rw [h]
  simp only [maskOf, e, Nat.cast_zero, Nat.cast_one]

/-- **C04**, doubles: the same with IEEE comparisons; a NaN bound stays switched on. -/
theorem C04_mask_double (dm : Dims) (m : Model Dbl)
    (hf : m.Fresh) (ws : List (Write Dbl)) (f : VF) (hm : f.Meaningful dm) (i : Nat)
    (hi : i < f.len dm) :
    (setAll dm m ws).dmask (f.off dm + i) =
      if f.upper then (if Dbl.fin 10000000000 ≤ lastVec dm f (fun _ => .fin 0) ws i then .fin 0 else .fin 1)
      else (if lastVec dm f (fun _ => .fin 0) ws i ≤ Dbl.fin (-10000000000) then .fin 0 else .fin 1) := by
  have e1 : (infty : Dbl) = Dbl.fin 10000000000 := by
    show Dbl.fin _ = _; congr 1
  have e2 : (-infty : Dbl) = Dbl.fin (-10000000000) := by rw [e1]; rfl
  have e3 : ((0 : Nat) : Dbl) = Dbl.fin 0 := by show Dbl.fin _ = _; congr 1
  have e4 : ((1 : Nat) : Dbl) = Dbl.fin 1 := by show Dbl.fin _ = _; congr 1
  have h := fresh_mask (D := Dbl) (by rw [e2, e3]; decide +kernel) (by rw [e1, e3]; decide +kernel)
    dm m hf ws f hm i hi
  rw [h]
  simp only [maskOf, e1, e2, e3, e4]
  rfl

section
variable {K : Type*} [Field K] [LinearOrder K] [IsStrictOrderedRing K]

/-- **C04**, residual: the row of a switched-off bound is exactly zero at every point, so it contributes
nothing to the residual and to any infeasibility measure. -/
theorem C04_off_row_zero (dm : Dims) (m : Model K) (hf : m.Fresh) (ws : List (Write K)) (f : VF)
    (hm : f.Meaningful dm) (i : Nat) (hi : i < f.len dm)
    (hoff : if f.upper then 10000000000 ≤ lastVec dm f (fun _ => 0) ws i
      else lastVec dm f (fun _ => 0) ws i ≤ -10000000000)
    (rev : Nat → Int) (ux c : Nat → K) :
    funOf dm (setAll dm m ws) rev ux c (f.off dm + i) = 0 := by
  have := C04_mask dm m hf ws f hm i hi
  have hz : (setAll dm m ws).dmask (f.off dm + i) = 0 := by
    rw [this]
    cases hu : f.upper <;> simp only [hu, Bool.false_eq_true, if_true, if_false] at hoff ⊢ <;>
      rw [if_pos hoff]
  simp only [funOf, hz, mul_zero]

/-- **C04**, multipliers: through the C interface, after every write the stored multipliers of all
switched-off bounds are zero, so they do not contribute to the stationarity condition. -/
theorem C04_off_multiplier_zero (dm : Dims) (s : Model K × (Nat → K)) (w : Write K) (i : Nat)
    (hi : i < 2 * (dm.ni + dm.ns)) (hoff : (setAndMaskLam dm s w).1.dmask i = 0) :
    (setAndMaskLam dm s w).2 i = 0 := by
  simp only [setAndMaskLam] at hoff ⊢
  rw [if_pos hi, hoff, zero_mul]

/-- ... and the multipliers of bounds that are on are kept. -/
theorem C04_on_multiplier_kept (dm : Dims) (s : Model K × (Nat → K)) (w : Write K) (i : Nat)
    (hon : (setAndMaskLam dm s w).1.dmask i = 1) : (setAndMaskLam dm s w).2 i = s.2 i := by
  simp only [setAndMaskLam] at hon ⊢
  split
  · rw [hon, one_mul]
  · rfl

end

/-- Floating point caveat: a bound written as `-infinity` is switched off (mask 0), but its row is
`(-inf - value) * 0 = NaN`, not zero, for every finite value. -/
theorem C04_minus_infinity_gives_nan (v : Rat) : rowLower Dbl.ninf (Dbl.fin v) (Dbl.fin 0) = Dbl.nan := by
  show Dbl.mul (Dbl.add Dbl.ninf (Dbl.fin (-v))) (Dbl.fin 0) = Dbl.nan
  simp [Dbl.add, Dbl.mul, Dbl.sgn, Dbl.ofSgn]

/-- ... whereas any finite value at or below `-1e10` gives a zero row. -/
theorem C04_finite_gives_zero (d v : Rat) : rowLower (Dbl.fin d) (Dbl.fin v) (Dbl.fin 0) = Dbl.fin 0 := by
  show Dbl.mul (Dbl.add (Dbl.fin d) (Dbl.fin (-v))) (Dbl.fin 0) = Dbl.fin 0
  simp [Dbl.add, Dbl.mul]

/-! ## C05: `fun ≤ 0` iff the constraints hold -/

section
variable {K : Type*} [Field K] [LinearOrder K] [IsStrictOrderedRing K]

theorem low_mask (dm : Dims) (m : Model K) (hf : m.Fresh) (ws : List (Write K)) (i : Nat)
    (hi : i < dm.ni) : (setAll dm m ws).dmask i = maskOf false ((setAll dm m ws).d i) := by
  have key : ∀ (f : VF), f.Meaningful dm → f.upper = false → f.off dm ≤ i → i < f.off dm + f.len dm →
      (setAll dm m ws).dmask i = maskOf false ((setAll dm m ws).d i) := by
    intro f hm hu h1 h2
    have h := setAll_mask dm f hm (i - f.off dm) (by omega) ws m
    rw [show f.off dm + (i - f.off dm) = i by omega, hu] at h
    apply h
    rw [hf.1, hf.2.1]
    have e : (infty : K) = 10000000000 := by norm_num [infty]
    have h0 : ¬ ((0 : K) ≤ -10000000000) := by norm_num
    simp [maskOf, e]
  unfold Dims.ni at hi
  by_cases h1 : i < dm.nbu
  · exact key .lbu trivial rfl (by simp [VF.off]) (by simpa [VF.off, VF.len])
  by_cases h2 : i < dm.nb
  · exact key .lbx trivial rfl (by simp only [VF.off]; omega)
      (by simp only [VF.off, VF.len]; unfold Dims.nb at h2; omega)
  by_cases h3 : i < dm.nb + dm.ng
  · exact key .lg trivial rfl (by simp only [VF.off]; omega) (by simp only [VF.off, VF.len]; omega)
  · exact key .lh trivial rfl (by simp only [VF.off]; omega) (by simp only [VF.off, VF.len]; omega)

theorem up_mask (dm : Dims) (m : Model K) (hf : m.Fresh) (ws : List (Write K)) (i : Nat)
    (hi : i < dm.ni) :
    (setAll dm m ws).dmask (dm.ni + i) = maskOf true ((setAll dm m ws).d (dm.ni + i)) := by
  have key : ∀ (f : VF), f.Meaningful dm → f.upper = true → f.off dm ≤ dm.ni + i →
      dm.ni + i < f.off dm + f.len dm →
      (setAll dm m ws).dmask (dm.ni + i) = maskOf true ((setAll dm m ws).d (dm.ni + i)) := by
    intro f hm hu h1 h2
    have h := setAll_mask dm f hm (dm.ni + i - f.off dm) (by omega) ws m
    rw [show f.off dm + (dm.ni + i - f.off dm) = dm.ni + i by omega, hu] at h
    apply h
    rw [hf.1, hf.2.1]
    have e : (infty : K) = 10000000000 := by norm_num [infty]
    have h0 : ¬ ((10000000000 : K) ≤ 0) := by norm_num
    simp [maskOf, e, h0]
  unfold Dims.ni at hi key ⊢
  by_cases h1 : i < dm.nbu
  · exact key .ubu trivial rfl (by simp only [VF.off]; omega) (by simp only [VF.off, VF.len]; omega)
  by_cases h2 : i < dm.nb
  · exact key .ubx trivial rfl (by simp only [VF.off]; omega)
      (by simp only [VF.off, VF.len]; unfold Dims.nb at h2 ⊢; omega)
  by_cases h3 : i < dm.nb + dm.ng
  · exact key .ug trivial rfl (by simp only [VF.off]; omega) (by simp only [VF.off, VF.len]; omega)
  · exact key .uh trivial rfl (by simp only [VF.off]; omega) (by simp only [VF.off, VF.len]; omega)

/-- slack rows: stored bound and mask -/
theorem slack_data (dm : Dims) (hs : dm.ns = dm.nsDerived ∨ dm.nsDerived = 0) (m : Model K)
    (hf : m.Fresh) (ws : List (Write K)) (k : Nat) (hk : k < dm.ns) :
    ((setAll dm m ws).d (2 * dm.ni + k) = lastLs dm ws k ∧
      (setAll dm m ws).dmask (2 * dm.ni + k) = maskOf false (lastLs dm ws k)) ∧
    ((setAll dm m ws).d (2 * dm.ni + (dm.ns + k)) = lastUs dm ws k ∧
      (setAll dm m ws).dmask (2 * dm.ni + (dm.ns + k)) = maskOf false (lastUs dm ws k)) := by
  have e : (infty : K) = 10000000000 := by norm_num [infty]
  have key : ∀ (f : VF) (i pos : Nat), f.Meaningful dm → f.upper = false → i < f.len dm →
      pos = f.off dm + i →
      (setAll dm m ws).d pos = lastVec dm f (fun _ => 0) ws i ∧
      (setAll dm m ws).dmask pos = maskOf false (lastVec dm f (fun _ => 0) ws i) := by
    intro f i pos hm hu hi hp
    subst hp
    have h1 := fresh_d dm m hf ws f hm i hi
    have h2 := fresh_mask (D := K) (by rw [e]; norm_num) (by rw [e]; norm_num) dm m hf ws f hm i hi
    rw [hu] at h2
    simp only [Nat.cast_zero] at h1 h2
    exact ⟨h1, h2⟩
  have hs' := hs
  unfold Dims.nsDerived at hs'
  unfold lastLs lastUs Dims.ni
  by_cases h0 : dm.nsDerived = 0
  · simp only [h0, if_true]
    exact ⟨key .ls k _ h0 rfl hk (by simp only [VF.off]; omega),
      key .us k _ h0 rfl hk (by simp only [VF.off]; omega)⟩
  · simp only [h0, if_false]
    have hs2 : dm.ns = dm.nsbu + dm.nsbx + dm.nsg + dm.nsh := by
      rcases hs with h | h
      · exact h
      · exact absurd h h0
    by_cases h1 : k < dm.nsbu
    · simp only [h1, if_true]
      exact ⟨key .lsbu k _ hs rfl h1 (by simp only [VF.off]; omega),
        key .usbu k _ hs rfl h1 (by simp only [VF.off]; omega)⟩
    by_cases h2 : k < dm.nsbu + dm.nsbx
    · simp only [h1, h2, if_true, if_false]
      exact ⟨key .lsbx _ _ hs rfl (by simp only [VF.len]; omega) (by simp only [VF.off]; omega),
        key .usbx _ _ hs rfl (by simp only [VF.len]; omega) (by simp only [VF.off]; omega)⟩
    by_cases h3 : k < dm.nsbu + dm.nsbx + dm.nsg
    · simp only [h1, h2, h3, if_true, if_false]
      exact ⟨key .lsg _ _ hs rfl (by simp only [VF.len]; omega) (by simp only [VF.off]; omega),
        key .usg _ _ hs rfl (by simp only [VF.len]; omega) (by simp only [VF.off]; omega)⟩
    · simp only [h1, h2, h3, if_false]
      exact ⟨key .lsh _ _ hs rfl (by simp only [VF.len]; omega) (by simp only [VF.off]; omega),
        key .ush _ _ hs rfl (by simp only [VF.len]; omega) (by simp only [VF.off]; omega)⟩

theorem sum_range_split (f : Nat → K) (a b : Nat) :
    ∑ r ∈ range (a + b), f r = ∑ r ∈ range b, f (a + r) + ∑ r ∈ range a, f r := by
  rw [sum_range_add, add_comm]

/-- common part of the two versions of C05 -/
theorem C05_core (dm : Dims) (m : Model K) (hf : m.Fresh) (ws : List (Write K)) (mem : Memory K)
    (hpre : PrecomputeOk dm (setAll dm m ws))
    (hidx : GoodIdx dm (getIdxbu m) (getIdxbx dm m) ws)
    (hvs : (setAll dm m ws).useIdxsRev = false →
      ∀ k < dm.ns, 0 ≤ (setAll dm m ws).idxs k ∧ (setAll dm m ws).idxs k < dm.ni)
    (hvr : (setAll dm m ws).useIdxsRev = true →
      ∀ i < dm.ni, (initMem dm (setAll dm m ws) mem).idxsRev i < dm.ns)
    (h : Nat → K) (p : Point K) (ux : Nat → K) (hux : Stacks dm ux p) :
    (∀ i < 2 * (dm.ni + dm.ns),
      funOf dm (setAll dm m ws) (initMem dm (setAll dm m ws) mem).idxsRev ux
        (constrEval dm (setAll dm m ws) (initMem dm (setAll dm m ws) mem).DCt h ux) i ≤ 0) ↔
    StageOk dm (stageData dm (getIdxbu m) (getIdxbx dm m) (getC dm m) (getD m) ws) h
      (relaxL dm (setAll dm m ws) (initMem dm (setAll dm m ws) mem).idxsRev ux)
      (relaxU dm (setAll dm m ws) (initMem dm (setAll dm m ws) mem).idxsRev ux) p := by
  obtain ⟨hIbu, hIbx, -⟩ := C03_index_fields dm m ws
  have hd : ∀ (f : VF) (_ : f.Meaningful dm) (i : Nat), i < f.len dm → ∀ pos, pos = f.off dm + i →
      (setAll dm m ws).d pos = lastVec dm f (fun _ => 0) ws i := by
    intro f hm i hi pos hp
    subst hp
    have h1 := fresh_d dm m hf ws f hm i hi
    simpa only [Nat.cast_zero] using h1
  have hlm := low_mask dm m hf ws
  have hum := up_mask dm m hf ws
  have hslack := slack_data dm (by
    unfold PrecomputeOk at hpre; split at hpre
    · exact Or.inr hpre
    · exact Or.inl hpre.symm) m hf ws
  have hMat := fun j hj i => mats_setAll dm i j hj ws m
  have hv : ValidMaps dm (setAll dm m ws) (initMem dm (setAll dm m ws) mem).idxsRev := by
    refine ⟨fun i hi => ?_, hvs, hvr⟩
    unfold Dims.nb at hi
    by_cases hb : i < dm.nbu
    · have h1 := hIbu i hb; have h2 := hidx.bu i hb
      rw [show (setAll dm m ws).idxb i = _ from h1]; exact ⟨h2.1, by have := h2.2; omega⟩
    · have h1 := hIbx (i - dm.nbu) (by omega); have h2 := hidx.bx (i - dm.nbu) (by omega)
      simp only [getIdxbx] at h1 h2
      rw [show i - dm.nbu + dm.nbu = i by omega] at h1
      omega
  generalize hM : setAll dm m ws = M at *
  generalize hmem : initMem dm M mem = mem' at *
  have hDC : ∀ r c, r < dm.nu + dm.nx → c < dm.ng → mem'.DCt r c = M.DCt r c := by
    intro r c hr hc; rw [← hmem]; simp only [initMem, hr, hc, and_self, if_true]
  generalize hc : constrEval dm M mem'.DCt h ux = c
  -- constraint values
  have cbu : ∀ i < dm.nbu, c i = p.u ((lastInt .idxbu (getIdxbu m) ws i).toNat) := by
    intro i hi
    have hnb : i < dm.nb := by unfold Dims.nb; omega
    have h2 := hidx.bu i hi
    rw [← hc]; simp only [constrEval, hnb, if_true, at']
    have h1 := hIbu i hi; simp only [getIdxbu] at h1 h2 ⊢
    rw [h1]; exact hux.u _ (by omega)
  have cbx : ∀ i < dm.nbx, c (dm.nbu + i) = p.x ((lastInt .idxbx (getIdxbx dm m) ws i).toNat) := by
    intro i hi
    have hnb : dm.nbu + i < dm.nb := by unfold Dims.nb; omega
    have h2 := hidx.bx i hi
    have h1 := hIbx i hi
    have h3 : M.idxb (dm.nbu + i) = dm.nu + lastInt .idxbx (getIdxbx dm m) ws i := by
      rw [← h1]; simp only [getIdxbx, Nat.add_comm i]; omega
    rw [← hc]; simp only [constrEval, hnb, if_true]
    rw [h3, at'_add _ _ _ h2.1]; exact hux.x _ (by omega)
  have cg : ∀ j < dm.ng, c (dm.nbu + dm.nbx + j) =
      (∑ k ∈ range dm.nx, lastC (getC dm m) ws j k * p.x k) +
        ∑ k ∈ range dm.nu, lastD (getD m) ws j k * p.u k := by
    intro j hj
    have h1 : ¬ dm.nbu + dm.nbx + j < dm.nb := by unfold Dims.nb; omega
    have h2 : dm.nbu + dm.nbx + j < dm.nb + dm.ng := by unfold Dims.nb; omega
    rw [← hc]; simp only [constrEval, h1, h2, if_true, if_false]
    rw [show dm.nbu + dm.nbx + j - dm.nb = j by unfold Dims.nb; omega, sum_range_split]
    congr 1
    · refine sum_congr rfl fun k hk => ?_
      have hk' := mem_range.1 hk
      rw [hDC _ _ (by omega) hj, (hMat j hj k).1 hk', hux.x k hk']
    · refine sum_congr rfl fun k hk => ?_
      have hk' := mem_range.1 hk
      rw [hDC _ _ (by omega) hj, (hMat j hj k).2 hk', hux.u k hk']
  have ch : ∀ j < dm.nh, c (dm.nbu + dm.nbx + dm.ng + j) = h j := by
    intro j hj
    have h1 : ¬ dm.nbu + dm.nbx + dm.ng + j < dm.nb := by unfold Dims.nb; omega
    have h2 : ¬ dm.nbu + dm.nbx + dm.ng + j < dm.nb + dm.ng := by unfold Dims.nb; omega
    rw [← hc]; simp only [constrEval, h1, h2, if_false]
    congr 1; unfold Dims.nb; omega
  -- rows
  have R1 : (∀ i < dm.ni, funOf dm M mem'.idxsRev ux c i ≤ 0) ↔
      ∀ i < dm.ni, LowerOk (M.d i) (c i + relaxL dm M mem'.idxsRev ux i) :=
    forall₂_congr fun i hi => by rw [fun_lower dm M _ hv ux c i hi]; exact lower_row (hlm i hi)
  have R2 : (∀ i < dm.ni, funOf dm M mem'.idxsRev ux c (dm.ni + i) ≤ 0) ↔
      ∀ i < dm.ni, UpperOk (M.d (dm.ni + i)) (c i - relaxU dm M mem'.idxsRev ux i) :=
    forall₂_congr fun i hi => by rw [fun_upper dm M _ hv ux c i hi]; exact upper_row (hum i hi)
  have R3 : (∀ k < dm.ns, funOf dm M mem'.idxsRev ux c (2 * dm.ni + k) ≤ 0) ↔
      ∀ k < dm.ns, LowerOk (lastLs dm ws k) (p.sl k) :=
    forall₂_congr fun k hk => by
      rw [fun_slack, (hslack k hk).1.1]
      have := lower_row (v := p.sl k) (r := 0) (hslack k hk).1.2
      rw [sub_zero, add_zero] at this
      rw [hux.sl k hk]; exact this
  have R4 : (∀ k < dm.ns, funOf dm M mem'.idxsRev ux c (2 * dm.ni + (dm.ns + k)) ≤ 0) ↔
      ∀ k < dm.ns, LowerOk (lastUs dm ws k) (p.su k) :=
    forall₂_congr fun k hk => by
      rw [fun_slack, (hslack k hk).2.1, ← Nat.add_assoc, hux.su k hk]
      have := lower_row (v := p.su k) (r := 0) (hslack k hk).2.2
      rw [sub_zero, add_zero] at this
      exact this
  have hn : 2 * (dm.ni + dm.ns) = dm.ni + (dm.ni + (dm.ns + dm.ns)) := by omega
  have hni : dm.ni = dm.nbu + (dm.nbx + (dm.ng + dm.nh)) := by unfold Dims.ni Dims.nb; omega
  rw [hn, forall_lt_add, forall_lt_add, forall_lt_add]
  simp only [show ∀ k, dm.ni + (dm.ni + k) = 2 * dm.ni + k from fun k => by omega]
  rw [R1, R2, R3, R4]
  have L : (∀ i < dm.ni, LowerOk (M.d i) (c i + relaxL dm M mem'.idxsRev ux i)) ↔
      (∀ i < dm.nbu, LowerOk (lastVec dm .lbu (fun _ => 0) ws i)
        (p.u ((lastInt .idxbu (getIdxbu m) ws i).toNat) + relaxL dm M mem'.idxsRev ux i)) ∧
      (∀ i < dm.nbx, LowerOk (lastVec dm .lbx (fun _ => 0) ws i)
        (p.x ((lastInt .idxbx (getIdxbx dm m) ws i).toNat) + relaxL dm M mem'.idxsRev ux (dm.nbu + i))) ∧
      (∀ j < dm.ng, LowerOk (lastVec dm .lg (fun _ => 0) ws j)
        ((∑ k ∈ range dm.nx, lastC (getC dm m) ws j k * p.x k) +
          (∑ k ∈ range dm.nu, lastD (getD m) ws j k * p.u k)
          + relaxL dm M mem'.idxsRev ux (dm.nbu + dm.nbx + j))) ∧
      (∀ j < dm.nh, LowerOk (lastVec dm .lh (fun _ => 0) ws j)
        (h j + relaxL dm M mem'.idxsRev ux (dm.nbu + dm.nbx + dm.ng + j))) := by
    conv_lhs => rw [hni, forall_lt_add, forall_lt_add, forall_lt_add]
    simp only [← Nat.add_assoc]
    refine and_congr (forall₂_congr fun i hi => ?_) (and_congr (forall₂_congr fun i hi => ?_)
      (and_congr (forall₂_congr fun i hi => ?_) (forall₂_congr fun i hi => ?_)))
    · rw [hd .lbu trivial i hi _ (by simp [VF.off]), cbu i hi]
    · rw [hd .lbx trivial i hi _ (by simp [VF.off]), cbx i hi]
    · rw [hd .lg trivial i hi _ (by simp [VF.off, Dims.nb]), cg i hi]
    · rw [hd .lh trivial i hi _ (by simp [VF.off, Dims.nb]), ch i hi]
  have U : (∀ i < dm.ni, UpperOk (M.d (dm.ni + i)) (c i - relaxU dm M mem'.idxsRev ux i)) ↔
      (∀ i < dm.nbu, UpperOk (lastVec dm .ubu (fun _ => 0) ws i)
        (p.u ((lastInt .idxbu (getIdxbu m) ws i).toNat) - relaxU dm M mem'.idxsRev ux i)) ∧
      (∀ i < dm.nbx, UpperOk (lastVec dm .ubx (fun _ => 0) ws i)
        (p.x ((lastInt .idxbx (getIdxbx dm m) ws i).toNat) - relaxU dm M mem'.idxsRev ux (dm.nbu + i))) ∧
      (∀ j < dm.ng, UpperOk (lastVec dm .ug (fun _ => 0) ws j)
        ((∑ k ∈ range dm.nx, lastC (getC dm m) ws j k * p.x k) +
          (∑ k ∈ range dm.nu, lastD (getD m) ws j k * p.u k)
          - relaxU dm M mem'.idxsRev ux (dm.nbu + dm.nbx + j))) ∧
      (∀ j < dm.nh, UpperOk (lastVec dm .uh (fun _ => 0) ws j)
        (h j - relaxU dm M mem'.idxsRev ux (dm.nbu + dm.nbx + dm.ng + j))) := by
    have : ∀ Q : Nat → Prop, (∀ i < dm.ni, Q i) ↔ (∀ i < dm.nbu, Q i) ∧ (∀ i < dm.nbx, Q (dm.nbu + i)) ∧
        (∀ i < dm.ng, Q (dm.nbu + dm.nbx + i)) ∧ (∀ i < dm.nh, Q (dm.nbu + dm.nbx + dm.ng + i)) := by
      intro Q; rw [hni, forall_lt_add, forall_lt_add, forall_lt_add]; simp only [← Nat.add_assoc]
    rw [this]
    refine and_congr (forall₂_congr fun i hi => ?_) (and_congr (forall₂_congr fun i hi => ?_)
      (and_congr (forall₂_congr fun i hi => ?_) (forall₂_congr fun i hi => ?_)))
    · rw [hd .ubu trivial i hi _ (by simp only [VF.off, Dims.ni]), cbu i hi]
    · rw [hd .ubx trivial i hi _ (by simp only [VF.off, Dims.ni]; omega), cbx i hi]
    · rw [hd .ug trivial i hi _ (by simp only [VF.off, Dims.ni, Dims.nb]; omega), cg i hi]
    · rw [hd .uh trivial i hi _ (by simp only [VF.off, Dims.ni, Dims.nb]; omega), ch i hi]
  rw [L, U]
  constructor
  · rintro ⟨⟨a1, a2, a3, a4⟩, ⟨b1, b2, b3, b4⟩, s1, s2⟩
    exact ⟨fun i hi => ⟨a1 i hi, b1 i hi⟩, fun i hi => ⟨a2 i hi, b2 i hi⟩,
      fun i hi => ⟨a3 i hi, b3 i hi⟩, fun i hi => ⟨a4 i hi, b4 i hi⟩, fun k hk => ⟨s1 k hk, s2 k hk⟩⟩
  · rintro ⟨h1, h2, h3, h4, h5⟩
    exact ⟨⟨fun i hi => (h1 i hi).1, fun i hi => (h2 i hi).1, fun i hi => (h3 i hi).1,
        fun i hi => (h4 i hi).1⟩,
      ⟨fun i hi => (h1 i hi).2, fun i hi => (h2 i hi).2, fun i hi => (h3 i hi).2,
        fun i hi => (h4 i hi).2⟩, fun k hk => (h5 k hk).1, fun k hk => (h5 k hk).2⟩

/-- **C05**, slack lists given group by group (`idxsbu`, ...).  After any history of writes from a fresh
model, with the nonlinear constraint values `h` and the iterate `p` (stacked in `ux`): the inequality
vector is componentwise nonpositive iff every bound, general and nonlinear constraint that is not
switched off holds, relaxed by the slacks listed for it, and every slack bound holds. -/
theorem C05_nonpositive_iff_constraints_hold (dm : Dims) (m : Model K) (hf : m.Fresh)
    (ws : List (Write K)) (mem : Memory K) (hno : ¬ usesRev ws) (hpre : PrecomputeOk dm (setAll dm m ws))
    (hidx : GoodIdx dm (getIdxbu m) (getIdxbx dm m) ws)
    (hidxs : ∀ k < dm.ns, 0 ≤ getIdxs (setAll dm m ws) k ∧ getIdxs (setAll dm m ws) k < dm.ni)
    (h : Nat → K) (p : Point K) (ux : Nat → K) (hux : Stacks dm ux p) :
    (∀ i < 2 * (dm.ni + dm.ns),
      funOf dm (setAll dm m ws) (initMem dm (setAll dm m ws) mem).idxsRev ux
        (constrEval dm (setAll dm m ws) (initMem dm (setAll dm m ws) mem).DCt h ux) i ≤ 0) ↔
    StageOk dm (stageData dm (getIdxbu m) (getIdxbx dm m) (getC dm m) (getD m) ws) h
      (relaxByIdxs dm.ns (getIdxs (setAll dm m ws)) p.sl)
      (relaxByIdxs dm.ns (getIdxs (setAll dm m ws)) p.su) p := by
  have hr : (setAll dm m ws).useIdxsRev = false := by
    by_contra hc
    rcases (useRev_setAll dm ws m).1 (by simpa using hc) with h1 | h1
    · rw [hf.2.2.2] at h1; cases h1
    · exact hno h1
  rw [C05_core dm m hf ws mem hpre hidx (fun _ => hidxs) (fun h1 => by rw [hr] at h1; cases h1) h p ux hux]
  have eL : relaxL dm (setAll dm m ws) (initMem dm (setAll dm m ws) mem).idxsRev ux =
      relaxByIdxs dm.ns (getIdxs (setAll dm m ws)) p.sl := by
    funext i
    simp only [relaxL, hr, Bool.false_eq_true, if_false, relaxByIdxs]
    exact sum_congr rfl fun k hk => by rw [hux.sl k (mem_range.1 hk)]; rfl
  have eU : relaxU dm (setAll dm m ws) (initMem dm (setAll dm m ws) mem).idxsRev ux =
      relaxByIdxs dm.ns (getIdxs (setAll dm m ws)) p.su := by
    funext i
    simp only [relaxU, hr, Bool.false_eq_true, if_false, relaxByIdxs]
    exact sum_congr rfl fun k hk => by rw [hux.su k (mem_range.1 hk)]; rfl
  rw [eL, eU]

/-- `StageOk` only looks at the relaxations of existing constraints -/
theorem StageOk_congr (dm : Dims) (s : StageData K) (h rl ru rl' ru' : Nat → K) (p : Point K)
    (hl : ∀ i < dm.ni, rl i = rl' i) (hu : ∀ i < dm.ni, ru i = ru' i) :
    StageOk dm s h rl ru p ↔ StageOk dm s h rl' ru' p := by
  have e : dm.ni = dm.nbu + dm.nbx + dm.ng + dm.nh := rfl
  unfold StageOk
  refine and_congr (forall₂_congr fun i hi => ?_) (and_congr (forall₂_congr fun i hi => ?_)
      (and_congr (forall₂_congr fun i hi => ?_) (and_congr (forall₂_congr fun i hi => ?_) Iff.rfl))) <;>
  · try simp only
    rw [hl _ (by omega), hu _ (by omega)]

/-- **C05**, slack assignment given as `idxs_rev`. -/
theorem C05_nonpositive_iff_constraints_hold_rev (dm : Dims) (m : Model K) (hf : m.Fresh)
    (ws : List (Write K)) (mem : Memory K) (hrev : usesRev ws) (hpre : PrecomputeOk dm (setAll dm m ws))
    (hidx : GoodIdx dm (getIdxbu m) (getIdxbx dm m) ws)
    (hr : ∀ i < dm.ni, lastRev m.idxsRev ws i < dm.ns)
    (h : Nat → K) (p : Point K) (ux : Nat → K) (hux : Stacks dm ux p) :
    (∀ i < 2 * (dm.ni + dm.ns),
      funOf dm (setAll dm m ws) (initMem dm (setAll dm m ws) mem).idxsRev ux
        (constrEval dm (setAll dm m ws) (initMem dm (setAll dm m ws) mem).DCt h ux) i ≤ 0) ↔
    StageOk dm (stageData dm (getIdxbu m) (getIdxbx dm m) (getC dm m) (getD m) ws) h
      (relaxByRev (lastRev m.idxsRev ws) p.sl) (relaxByRev (lastRev m.idxsRev ws) p.su) p := by
  have hu : (setAll dm m ws).useIdxsRev = true := (useRev_setAll dm ws m).2 (Or.inr hrev)
  have hrv : ∀ i < dm.ni, (initMem dm (setAll dm m ws) mem).idxsRev i = lastRev m.idxsRev ws i := by
    intro i hi
    rw [← rev_setAll dm i hi ws m]
    unfold Dims.ni at hi
    simp only [initMem, hu, if_true, hi]
  rw [C05_core dm m hf ws mem hpre hidx (fun h1 => by rw [hu] at h1; cases h1)
    (fun _ i hi => by rw [hrv i hi]; exact hr i hi) h p ux hux]
  apply StageOk_congr
  · intro i hi
    simp only [relaxL, hu, if_true, relaxByRev, hrv i hi]
    split
    · have := hr i hi; rw [hux.sl _ (by omega)]
    · rfl
  · intro i hi
    simp only [relaxU, hu, if_true, relaxByRev, hrv i hi]
    split
    · have := hr i hi; rw [hux.su _ (by omega)]
    · rfl

end

/-! A concrete stage meeting the hypotheses of C03 - C06: one control, one state, one bound each, one
general and one nonlinear constraint, the bound on `x` soft. -/
def exDims : Dims := ⟨1, 1, 0, 1, 1, 1, 1, 1, 0, 1, 0, 0, 0, 0, 0, 0⟩
def exModel : Model Rat :=
  ⟨fun _ => 5, fun _ => 9, fun _ => 3, fun _ => 0, fun _ => 0, fun _ => 1, fun _ _ => 8, false⟩
def exWrites : List (Write Rat) :=
  [.int .idxbu fun _ => 0, .vec .lbu fun _ => 7, .int .idxbx fun _ => 0, .vec .lbx fun _ => 2,
   .vec .ubx fun _ => 20000000000, .C fun _ _ => 1, .D fun _ _ => 1, .vec .ug fun _ => 4,
   .vec .lg fun _ => -20000000000, .vec .uh fun _ => 1, .int .idxsbx fun _ => 0, .vec .lsbx fun _ => 0,
   .vec .lbu fun _ => -1, .vec .ubu fun _ => 1]
/-- `u = 1`, `x = 1`, lower slack `1`, upper slack `0` -/
def exUx : Nat → Rat := fun i => if i = 3 then 0 else 1

example : exModel.Fresh := ⟨fun _ => rfl, fun _ => rfl, fun _ => rfl, rfl⟩
example : lastVec exDims .lbu (fun _ => 0) exWrites 0 = -1 ∧
    getIdxbx exDims (setAll exDims exModel exWrites) 0 = 0 ∧
    getIdxs (setAll exDims exModel exWrites) 0 = 1 ∧
    getC exDims (setAll exDims exModel exWrites) 0 0 = 1 := by decide +kernel
example : ¬ usesRev exWrites := by
  rintro ⟨v, hv⟩; simp [exWrites] at hv
example : PrecomputeOk exDims (setAll exDims exModel exWrites) := by
  show exDims.nsDerived = exDims.ns; rfl
example : GoodIdx exDims (getIdxbu exModel) (getIdxbx exDims exModel) exWrites :=
  ⟨by decide, by decide⟩
example : Stacks exDims exUx ⟨fun _ => 1, fun _ => 1, fun _ => 1, fun _ => 0⟩ :=
  ⟨by decide +kernel, by decide +kernel, by decide +kernel, by decide +kernel⟩
/-- at this point all rows are nonpositive (the soft lower bound `2 ≤ x` only thanks to its slack) ... -/
example : ∀ i < 2 * (exDims.ni + exDims.ns),
    funOf exDims (setAll exDims exModel exWrites)
      (initMem exDims (setAll exDims exModel exWrites) ⟨fun _ => 0, fun _ => -1, fun _ => 0, fun _ _ => 0⟩).idxsRev
      exUx (constrEval exDims (setAll exDims exModel exWrites)
        (initMem exDims (setAll exDims exModel exWrites)
          ⟨fun _ => 0, fun _ => -1, fun _ => 0, fun _ _ => 0⟩).DCt (fun _ => 0) exUx) i ≤ 0 := by
  decide +kernel
/-- ... and with zero slack they are not. -/
example : ¬ ∀ i < 2 * (exDims.ni + exDims.ns),
    funOf exDims (setAll exDims exModel exWrites)
      (initMem exDims (setAll exDims exModel exWrites) ⟨fun _ => 0, fun _ => -1, fun _ => 0, fun _ _ => 0⟩).idxsRev
      (fun i => if 2 ≤ i then 0 else 1) (constrEval exDims (setAll exDims exModel exWrites)
        (initMem exDims (setAll exDims exModel exWrites)
          ⟨fun _ => 0, fun _ => -1, fun _ => 0, fun _ _ => 0⟩).DCt (fun _ => 0)
          (fun i => if 2 ≤ i then 0 else 1)) i ≤ 0 := by
  decide +kernel
/-- C04: the lower general bound and the upper state bound of the example are switched off -/
example : (setAll exDims exModel exWrites).dmask (VF.off exDims .lg + 0) = 0 ∧
    (setAll exDims exModel exWrites).dmask (VF.off exDims .ubx + 0) = 0 ∧
    (setAll exDims exModel exWrites).dmask (VF.off exDims .ug + 0) = 1 := by decide +kernel

/-! ## C06: the adjoint is the transposed Jacobian times the multipliers -/

section
variable {K : Type*} [Field K]

/-- **C06** (bgh).  For every multiplier vector that vanishes on switched-off rows, every point and every
direction: pairing the multipliers with the change of the inequality vector (nonlinear part linearised)
gives minus the pairing of the adjoint with the direction.  Both slack formulations. -/
theorem C06_adjoint (dm : Dims) (m : Model K) (rev : Nat → Int) (hv : ValidMaps dm m rev)
    (DCt : Nat → Nat → K) (h0 ux δ lam : Nat → K)
    (hl : ∀ i < 2 * (dm.ni + dm.ns), m.dmask i = 1 ∨ lam i = 0) :
    ∑ i ∈ range (2 * (dm.ni + dm.ns)), lam i *
      (funOf dm m rev (fun r => ux r + δ r) (linEval dm m DCt h0 (fun r => ux r + δ r)) i
        - funOf dm m rev ux (linEval dm m DCt h0 ux) i) =
    - ∑ r ∈ range (dm.nu + dm.nx + 2 * dm.ns), adj dm m rev DCt lam r * δ r := by
  rw [fun_pair dm m rev hv DCt h0 ux δ lam hl, adj_pair dm m rev hv]

/-- **C06** (bgp), `_partial`: holds when the slacks are given by `idxs`.  Missing: `idxs_rev`, where it
is false, see below. -/
theorem C06_adjoint_bgp_partial (dm : Dims) (m : Model K) (rev : Nat → Int) (hv : ValidMaps dm m rev)
    (hidxs : m.useIdxsRev = false)
    (DCt : Nat → Nat → K) (h0 ux δ lam : Nat → K)
    (hl : ∀ i < 2 * (dm.ni + dm.ns), m.dmask i = 1 ∨ lam i = 0) :
    ∑ i ∈ range (2 * (dm.ni + dm.ns)), lam i *
      (funOf dm m rev (fun r => ux r + δ r) (linEval dm m DCt h0 (fun r => ux r + δ r)) i
        - funOf dm m rev ux (linEval dm m DCt h0 ux) i) =
    - ∑ r ∈ range (dm.nu + dm.nx + 2 * dm.ns), adjBgp dm m rev DCt lam r * δ r := by
  have : adjBgp dm m rev DCt lam = adj dm m rev DCt lam := by
    funext r; simp only [adjBgp, adj, hidxs, Bool.false_eq_true, if_false]
  rw [this]
  exact C06_adjoint dm m rev hv DCt h0 ux δ lam hl

end

/-- C06: hypotheses hold for the stage above with both formulations' data, with nonzero multipliers -/
example : ValidMaps exDims (setAll exDims exModel exWrites) (fun _ => -1) ∧
    ∀ i < 2 * (exDims.ni + exDims.ns), (setAll exDims exModel exWrites).dmask i = 1 ∨
      (fun i => if (setAll exDims exModel exWrites).dmask i = 1 then (3 : Rat) else 0) i = 0 :=
  ⟨⟨by decide +kernel, by intro _; decide +kernel, by intro h; cases h⟩, by decide +kernel⟩
example : adj exDims (setAll exDims exModel exWrites) (fun _ => -1) (fun _ _ => 1) (fun i => i) 2 = 9 := by
  decide +kernel

/-- one control with one soft bound and one slack -/
def oneSoft : Dims := ⟨0, 1, 0, 0, 1, 0, 0, 1, 0, 0, 0, 0, 0, 0, 0, 0⟩
def oneSoftModel : Model Rat :=
  ⟨fun _ => 0, fun _ => 0, fun _ => 0, fun _ => 0, fun _ => 0, fun _ => 1, fun _ _ => 0, true⟩

/-- The bgp adjoint is wrong with `idxs_rev`: the multiplier of the slack bound is left out. -/
theorem C06_bgp_idxs_rev_wrong :
    ∃ (lam δ : Nat → Rat), ValidMaps oneSoft oneSoftModel (fun _ => 0) ∧
      (∀ i, oneSoftModel.dmask i = 1) ∧
      ∑ i ∈ range (2 * (oneSoft.ni + oneSoft.ns)), lam i *
        (funOf oneSoft oneSoftModel (fun _ => 0) δ (linEval oneSoft oneSoftModel (fun _ _ => 0) (fun _ => 0) δ) i
          - funOf oneSoft oneSoftModel (fun _ => 0) (fun _ => 0)
              (linEval oneSoft oneSoftModel (fun _ _ => 0) (fun _ => 0) (fun _ => 0)) i) ≠
      - ∑ r ∈ range (oneSoft.nu + oneSoft.nx + 2 * oneSoft.ns),
          adjBgp oneSoft oneSoftModel (fun _ => 0) (fun _ _ => 0) lam r * δ r := by
  refine ⟨fun i => if i = 2 then 1 else 0, fun r => if r = 1 then 1 else 0, ⟨?_, ?_, ?_⟩, fun _ => rfl, ?_⟩
  · decide
  · decide
  · decide
  · decide +kernel

/-! ## C07: which constraints are soft -/

theorem scatter_spec (idxs : Nat → Int) (a : Nat → Int) : ∀ n i : Nat,
    (∃ k < n, idxs k = (i : Int) ∧ scatter idxs n a i = (k : Int)) ∨
    ((∀ k < n, idxs k ≠ (i : Int)) ∧ scatter idxs n a i = a i) := by
  intro n
  induction n with
  | zero => intro i; right; exact ⟨fun k hk => absurd hk (by omega), rfl⟩
  | succ n ih =>
    intro i
    simp only [scatter]
    by_cases h : (i : Int) = idxs n
    · left; exact ⟨n, by omega, h.symm, by rw [if_pos h]⟩
    · rw [if_neg h]
      rcases ih i with ⟨k, hk, h1, h2⟩ | ⟨h1, h2⟩
      · left; exact ⟨k, by omega, h1, h2⟩
      · right
        refine ⟨fun k hk => ?_, h2⟩
        by_cases hkn : k = n
        · subst hkn; exact fun hh => h hh.symm
        · exact h1 k (by omega)

section
variable {K : Type*} [LE K] [DecidableLE K] [NatCast K] [Neg K]

theorem acts_append (dm : Dims) (s : Model K × Memory K) (a b : List (Act K)) :
    acts dm s (a ++ b) = acts dm (acts dm s a) b := by simp [acts, List.foldl_append]

/-- **C07** for `idxs_rev`: whatever happened before, the solve sees exactly the assignment last
written. -/
theorem C07_rev_follows_last_write (dm : Dims) (s : Model K × Memory K) (as : List (Act K))
    (v : Nat → Int) (later : List (Write K)) (hl : ¬ usesRev later) (i : Nat) (hi : i < dm.ni) :
    (acts dm s (as ++ [.write (.idxsRev v)] ++ later.map .write ++ [.solve])).2.idxsRev i = v i := by
  rw [acts_append, acts_append, acts_append]
  set t := acts dm (acts dm s as) [.write (.idxsRev v)] with ht
  have h1 : ∀ (ws : List (Write K)) (t : Model K × Memory K), acts dm t (ws.map .write) =
      (setAll dm t.1 ws, t.2) := by
    intro ws
    induction ws with
    | nil => intro t; rfl
    | cons w ws ih => intro t; exact ih _
  rw [h1]
  have h2 : t.1.idxsRev i = v i ∧ t.1.useIdxsRev = true := by
    have : i < dm.nb + dm.ng + dm.nh := hi
    simp [ht, acts, act, set, packVec, this]
  have h3 : (setAll dm t.1 later).idxsRev i = v i := by
    rw [rev_setAll dm i hi]
    have : ∀ (ws : List (Write K)) (v0 : Nat → Int), ¬ usesRev ws → lastRev v0 ws = v0 := by
      intro ws
      induction ws with
      | nil => intro v0 _; rfl
      | cons w ws ih =>
        intro v0 hn
        have hw : ∀ v', w ≠ .idxsRev v' := fun v' hv => hn ⟨v', by simp [hv]⟩
        have hn' : ¬ usesRev ws := fun ⟨v', hv⟩ => hn ⟨v', by simp [hv]⟩
        show lastRev _ ws = v0
        rw [ih _ hn']
        cases w with
        | idxsRev v' => exact absurd rfl (hw v')
        | _ => rfl
    rw [this later _ hl]; exact h2.1
  have h4 : (setAll dm t.1 later).useIdxsRev = true := (useRev_setAll dm later t.1).2 (Or.inl h2.2)
  have : i < dm.nb + dm.ng + dm.nh := hi
  simp [acts, act, initMem, h4, this, h3]

/-- **C07** for `idxsbu`, `idxsbx`, `idxsg`, `idxsh`, `_partial`: in the first solve (no row was soft
before) exactly the listed rows are soft, and with distinct entries each one gets its own slack.
Missing: later solves, see below. -/
theorem C07_first_solve_partial (dm : Dims) (m : Model K) (mem : Memory K) (hu : m.useIdxsRev = false)
    (hfirst : ∀ i, mem.idxsRev i = -1) (hinj : ∀ k < dm.ns, ∀ l < dm.ns, m.idxs k = m.idxs l → k = l) :
    (∀ i : Nat, 0 ≤ (initMem dm m mem).idxsRev i ↔ ∃ k < dm.ns, m.idxs k = (i : Int)) ∧
    (∀ i : Nat, ∀ k < dm.ns, m.idxs k = (i : Int) → (initMem dm m mem).idxsRev i = k) := by
  simp only [initMem, hu, Bool.false_eq_true, if_false]
  constructor
  · intro i
    rcases scatter_spec m.idxs mem.idxsRev dm.ns i with ⟨k, hk, h1, h2⟩ | ⟨h1, h2⟩
    · rw [h2]; exact ⟨fun _ => ⟨k, hk, h1⟩, fun _ => by omega⟩
    · rw [h2, hfirst]; exact ⟨fun h => absurd h (by omega), fun ⟨k, hk, h⟩ => absurd h (h1 k hk)⟩
  · intro i k hk hki
    rcases scatter_spec m.idxs mem.idxsRev dm.ns i with ⟨l, hl, h1, h2⟩ | ⟨h1, h2⟩
    · rw [h2, hinj k hk l hl (hki.trans h1.symm)]
    · exact absurd hki (h1 k hk)

/-- What happens in general: a row is soft in the QP iff it was listed at the time of *some* solve so
far.  (No `idxs_rev` writes; no row soft initially.) -/
theorem C07_soft_rows_accumulate (dm : Dims) (s : Model K × Memory K) (hu : s.1.useIdxsRev = false)
    (hfirst : ∀ i, s.2.idxsRev i = -1) (as : List (Act K))
    (hno : ∀ a ∈ as, ∀ v, a ≠ Act.write (.idxsRev v)) (i : Nat) :
    0 ≤ (acts dm s as).2.idxsRev i ↔
      ∃ pre post, as = pre ++ [.solve] ++ post ∧ ∃ k < dm.ns, (acts dm s pre).1.idxs k = (i : Int) := by
  induction as using List.reverseRecOn with
  | nil =>
    constructor
    · intro h; simp [acts, hfirst] at h
    · rintro ⟨pre, post, h, -⟩; simp at h
  | append_singleton as a ih =>
    have hno' : ∀ b ∈ as, ∀ v, b ≠ Act.write (.idxsRev v) := fun b hb => hno b (by simp [hb])
    have ih := ih hno'
    have husr : ∀ (l : List (Act K)) (s : Model K × Memory K), s.1.useIdxsRev = false →
        (∀ b ∈ l, ∀ v, b ≠ Act.write (.idxsRev v)) → (acts dm s l).1.useIdxsRev = false := by
      intro l
      induction l with
      | nil => intro s h _; exact h
      | cons b l ihl =>
        intro s h hn
        apply ihl (act dm s b) _ (fun c hc => hn c (by simp [hc]))
        cases b with
        | solve => exact h
        | write w =>
          have hw := hn (.write w) (by simp)
          cases w with
          | int g v => cases g <;> exact h
          | vec g v => exact h
          | idxsRev v => exact absurd rfl (hw v)
          | C v => exact h
          | D v => exact h
    have hu' := husr as s hu hno'
    rw [acts_append]
    cases a with
    | write w =>
      have : (acts dm (acts dm s as) [Act.write w]).2 = (acts dm s as).2 := rfl
      rw [this, ih]
      constructor
      · rintro ⟨pre, post, h, hk⟩
        exact ⟨pre, post ++ [.write w], by rw [h]; simp, hk⟩
      · rintro ⟨pre, post, h, hk⟩
        rcases List.eq_nil_or_concat post with hp | ⟨post', b, hp⟩
        · subst hp
          rw [List.append_nil] at h
          have := (List.append_inj' h rfl).2
          simp at this
        · rw [List.concat_eq_append] at hp
          subst hp
          rw [← List.append_assoc] at h
          have := (List.append_inj' h rfl).1
          exact ⟨pre, post', this, hk⟩
    | solve =>
      have e : (acts dm (acts dm s as) [Act.solve]).2.idxsRev =
          scatter (acts dm s as).1.idxs dm.ns (acts dm s as).2.idxsRev := by
        simp [acts, act, initMem]
        intro h
        exact absurd h (by simpa [acts] using hu')
      rw [e]
      rcases scatter_spec (acts dm s as).1.idxs (acts dm s as).2.idxsRev dm.ns i with
        ⟨k, hk, h1, h2⟩ | ⟨h1, h2⟩
      · rw [h2]
        exact ⟨fun _ => ⟨as, [], by simp, k, hk, h1⟩, fun _ => by omega⟩
      · rw [h2, ih]
        constructor
        · rintro ⟨pre, post, h, hk⟩
          exact ⟨pre, post ++ [.solve], by rw [h]; simp, hk⟩
        · rintro ⟨pre, post, h, hk⟩
          rcases List.eq_nil_or_concat post with hp | ⟨post', b, hp⟩
          · subst hp
            rw [List.append_nil] at h
            have := (List.append_inj' h rfl).1
            subst this
            obtain ⟨k, hk, h3⟩ := hk
            exact absurd h3 (h1 k hk)
          · rw [List.concat_eq_append] at hp
            subst hp
            rw [← List.append_assoc] at h
            have := (List.append_inj' h rfl).1
            exact ⟨pre, post', this, hk⟩

end

/-- C07: a first solve with distinct entries -/
example : (setAll exDims exModel exWrites).useIdxsRev = false ∧
    (initMem exDims (setAll exDims exModel exWrites)
      ⟨fun _ => 0, fun _ => -1, fun _ => 0, fun _ _ => 0⟩).idxsRev 1 = 0 ∧
    (initMem exDims (setAll exDims exModel exWrites)
      ⟨fun _ => 0, fun _ => -1, fun _ => 0, fun _ _ => 0⟩).idxsRev 0 = -1 := by decide +kernel

/-- two controls, one slack -/
def twoBounds : Dims := ⟨0, 2, 0, 0, 2, 0, 0, 1, 1, 0, 0, 0, 0, 0, 0, 0⟩
def twoBoundsModel : Model Rat :=
  ⟨fun i => i, fun _ => 0, fun _ => 0, fun _ => 0, fun _ => 0, fun _ => 1, fun _ _ => 0, false⟩
def freshMem : Memory Rat := ⟨fun _ => 0, fun _ => -1, fun _ => 0, fun _ _ => 0⟩

/-- C07 is false of the code: soften bound 0, solve, soften bound 1 instead, solve again - bound 0 is
still soft in the QP (and shares its slack with bound 1), although the residual treats it as hard. -/
theorem C07_stale_soft_row :
    let s := acts twoBounds (twoBoundsModel, freshMem)
      [.write (.int .idxsbu fun _ => 0), .solve, .write (.int .idxsbu fun _ => 1), .solve]
    lastInt .idxsbu (fun _ => 0)
      [Write.int (D := Rat) .idxsbu fun _ => 0, Write.int .idxsbu fun _ => 1] 0 = 1 ∧
    s.1.idxs 0 = 1 ∧ s.2.idxsRev 0 = 0 ∧ s.2.idxsRev 1 = 0 := by
  decide +kernel

/-! ## C08: Jacobian columns with algebraic variables -/

section
variable {K : Type*} [Field K]

/-- **C08**, `_partial`: when there are no general linear constraints or no algebraic variables, every
column of a nonlinear constraint is its total derivative and the general linear columns are untouched.
Missing: `ng > 0` together with `nz > 0`, where it is false, see below. -/
theorem C08_total_derivative_partial (dm : Dims) (hd : dm.ng = 0 ∨ dm.nz = 0) (dzduxt : Nat → Nat → K)
    (o : HOut K) (DCt : Nat → Nat → K) :
    (∀ r < dm.nu + dm.nx, ∀ j < dm.nh, updateDCt dm dzduxt o DCt r (dm.ng + j) =
      o.jacUxT r j + ∑ k ∈ range dm.nz, dzduxt r k * o.jacZT k j) ∧
    (∀ r < dm.nu + dm.nx, ∀ j < dm.ng, updateDCt dm dzduxt o DCt r j = DCt r j) := by
  constructor
  · intro r hr j hj
    have h0 : dm.nh ≠ 0 := by omega
    have h1 : r < dm.nu + dm.nx ∧ dm.ng ≤ dm.ng + j ∧ dm.ng + j < dm.ng + dm.nh := by omega
    simp only [updateDCt, h0, if_false, gead, h1, Nat.add_sub_cancel_left]
    rcases hd with h | h
    · simp [h, hr, hj, chain]
    · simp [h, chain]
  · intro r hr j hj
    simp only [updateDCt]
    split
    · rfl
    · have h1 : ¬ (r < dm.nu + dm.nx ∧ dm.ng ≤ j ∧ j < dm.ng + dm.nh) := by omega
      simp only [gead, h1, if_false]
      rcases hd with h | h
      · omega
      · simp [h, chain]

/-- What the code computes in general: the chain-rule term of `h` is added `ng` rows further down, in the
columns `0 .. nh-1`. -/
theorem C08_misplaced_block (dm : Dims) (hh : dm.nh ≠ 0) (dzduxt : Nat → Nat → K)
    (o : HOut K) (DCt : Nat → Nat → K) (r c : Nat) :
    updateDCt dm dzduxt o DCt r c =
      (if r < dm.nu + dm.nx ∧ dm.ng ≤ c ∧ c < dm.ng + dm.nh then o.jacUxT r (c - dm.ng) else DCt r c) +
      (if dm.ng ≤ r ∧ r < dm.ng + (dm.nu + dm.nx) ∧ c < dm.nh then
        ∑ k ∈ range dm.nz, dzduxt (r - dm.ng) k * o.jacZT k c else 0) := by
  simp only [updateDCt, hh, if_false, gead, Nat.zero_le, true_and, Nat.zero_add, chain, Nat.sub_zero]
  split_ifs <;> simp

end

/-- C08: a stage with algebraic variables and no general constraints -/
example : updateDCt ⟨1, 1, 1, 0, 0, 0, 1, 0, 0, 0, 0, 0, 0, 0, 0, 0⟩ (fun r _ => (r : Rat) + 1)
    ⟨fun _ => 0, fun _ _ => 10, fun _ _ => 3⟩ (fun _ _ => 0) 1 0 = 16 := by decide +kernel

/-- one control, one state, one algebraic variable, one general linear and one nonlinear constraint -/
def dae : Dims := ⟨1, 1, 1, 0, 0, 1, 1, 0, 0, 0, 0, 0, 0, 0, 0, 0⟩

/-- C08 is false of the code: with `h = z`, `z = u`, general constraint `0`: the row of `h` misses its
derivative `1` w.r.t. `u`, the general linear row is changed, and an entry beyond the last row of the
`(nu+nx) × (ng+nh)` matrix is written. -/
theorem C08_false_with_general_constraints :
    let dz : Nat → Nat → Rat := fun _ _ => 1
    let o : HOut Rat := ⟨fun _ => 0, fun _ _ => 0, fun _ _ => 1⟩
    let A := updateDCt dae dz o (fun _ _ => 0)
    (A 0 1 ≠ o.jacUxT 0 0 + ∑ k ∈ range dae.nz, dz 0 k * o.jacZT k 0) ∧ A 1 0 ≠ 0 ∧ A 2 0 ≠ 0 := by
  decide +kernel

/-! ## The evaluation for line searches in the bgp module -/

section
variable {K : Type*} [Field K] [LinearOrder K] [IsStrictOrderedRing K]

/-- **C04** (bgp, function evaluation): all rows are those of the bgh module, except the rows of slack bounds that are
switched off: there the value is bound minus slack instead of zero. -/
theorem C04_bgp_rows (dm : Dims) (m : Model K) (rev : Nat → Int)
    (ux c : Nat → K) (i : Nat) :
    (i < 2 * dm.ni ∨ m.dmask i = 1 →
      funOfBgp dm m rev ux c i = funOf dm m rev ux c i)
    ∧ (2 * dm.ni ≤ i → funOfBgp dm m rev ux c i
        = m.d i - ux (dm.nu + dm.nx + (i - 2 * dm.ni))) := by
  refine ⟨fun h => ?_, fun h => ?_⟩
  · by_cases hi : i < 2 * dm.ni
    · simp [funOfBgp, hi]
    · have hm := h.resolve_left hi
      simp [funOfBgp, funOf, hi, hm]
  · have hi : ¬ i < 2 * dm.ni := by omega
    simp [funOfBgp, hi]

/-- **C05** (bgp, function evaluation), `_partial`: the values are all nonpositive exactly if those of the bgh module
are, that is (`C05_nonpositive_iff_constraints_hold`) if the constraints hold, provided no slack lies below a bound of at
most `-1e10`.  Missing: such slacks, for which it is false, see `C04_bgp_off_slack_counterexample`. -/
theorem C05_bgp_partial (dm : Dims) (m : Model K) (rev : Nat → Int) (ux c : Nat → K)
    (hmask : ∀ i, m.dmask i = 0 ∨ m.dmask i = 1)
    (hs : ∀ i, 2 * dm.ni ≤ i → i < 2 * (dm.ni + dm.ns) → m.dmask i = 0 →
      m.d i ≤ ux (dm.nu + dm.nx + (i - 2 * dm.ni))) :
    (∀ i < 2 * (dm.ni + dm.ns), funOfBgp dm m rev ux c i ≤ 0) ↔
      ∀ i < 2 * (dm.ni + dm.ns), funOf dm m rev ux c i ≤ 0 := by
  refine forall_congr' fun i => forall_congr' fun hi => ?_
  by_cases h : i < 2 * dm.ni
  · simp [funOfBgp, h]
  · simp only [funOfBgp, funOf, if_neg h]
    rcases hmask i with h0 | h1
    · have := hs i (by omega) hi h0
      rw [h0, mul_zero]
      simpa using this
    · rw [h1, mul_one]

end

/-- one soft bound on a state, slack bounds switched off by `-1e10` -/
def offSlackDims : Dims := ⟨1, 0, 0, 1, 0, 0, 0, 1, 0, 1, 0, 0, 0, 0, 0, 0⟩
@[inherit_doc offSlackDims] def offSlackModel : Model ℚ where
  idxb _ := 0
  idxs _ := 0
  idxsRev _ := 0
  idxe _ := 0
  d i := if i < 2 then 0 else -10000000000
  dmask i := if i < 2 then 1 else 0
  DCt _ _ := 0
  useIdxsRev := false

/-- The bgp evaluation does not switch off slack bounds: the row is `-1e10` instead of 0, and positive for a slack below
`-1e10`, although the same evaluation of the bgh module (and the linearisation of both) has the value 0. -/
theorem C04_bgp_off_slack_counterexample :
    ∃ ux ux' : Nat → ℚ,
      funOf offSlackDims offSlackModel (fun _ => 0) ux (fun _ => 0) 2 = 0
      ∧ funOfBgp offSlackDims offSlackModel (fun _ => 0) ux (fun _ => 0) 2 = -10000000000
      ∧ funOf offSlackDims offSlackModel (fun _ => 0) ux' (fun _ => 0) 2 = 0
      ∧ 0 < funOfBgp offSlackDims offSlackModel (fun _ => 0) ux' (fun _ => 0) 2 :=
  ⟨fun _ => 0, fun _ => -20000000000, by decide +kernel, by decide +kernel, by decide +kernel, by decide +kernel⟩

/-- hypotheses of `C05_bgp_partial` -/
example : (∀ i, offSlackModel.dmask i = 0 ∨ offSlackModel.dmask i = 1) ∧
    ∀ i, 2 * offSlackDims.ni ≤ i → i < 2 * (offSlackDims.ni + offSlackDims.ns) → offSlackModel.dmask i = 0 →
      offSlackModel.d i ≤ (fun _ => (1 : ℚ)) (offSlackDims.nu + offSlackDims.nx + (i - 2 * offSlackDims.ni)) := by
  refine ⟨fun i => ?_, fun i _ _ _ => ?_⟩
  · simp only [offSlackModel]; split <;> simp
  · simp only [offSlackModel]; split <;> norm_num

end Acados.Bgh
