import Verif.Lemmas.QpSlack
/-!
# C93: slacks of QP constraints and norms of residuals
-/
namespace Acados.QpSlack
open Finset
variable {K : Type} [Field K] [LinearOrder K] [IsStrictOrderedRing K]

omit [LinearOrder K] [IsStrictOrderedRing K] in
/-- **C93**: distances to the bounds.  For each constraint, `t` holds the distance of its value to the relaxed lower bound and to
the relaxed upper bound, and for each slack its distance to its bound; entries after these are unchanged. -/
theorem C93_values (s : Stage K) (v t : Nat → K) :
    (∀ j < s.nb + s.ng, computeT s v t j = s.val v j - (s.d j - s.sl v j)
      ∧ computeT s v t (s.nb + s.ng + j) = (-s.d (s.nb + s.ng + j) + s.su v j) - s.val v j)
    ∧ (∀ k < 2 * s.ns, computeT s v t (2 * s.nb + 2 * s.ng + k) = v (s.nv + k) - s.d (2 * s.nb + 2 * s.ng + k))
    ∧ ∀ q, 2 * s.nb + 2 * s.ng + 2 * s.ns ≤ q → computeT s v t q = t q := by
  refine ⟨fun j hj => ⟨?_, ?_⟩, fun k hk => ?_, fun q hq => ?_⟩
  · rw [computeT_eq, if_pos hj]; ring
  · rw [computeT_eq, if_neg (by omega), if_pos (by omega), Nat.add_sub_cancel_left]; ring
  · rw [computeT_eq, if_neg (by omega), if_neg (by omega), if_pos (by omega), Nat.add_sub_cancel_left]
  · rw [computeT_eq, if_neg (by omega), if_neg (by omega), if_neg (by omega)]

/-- **C93**: all entries of `t` are nonnegative exactly if the point satisfies all constraints of the stage. -/
theorem C93_feasible (s : Stage K) (v t : Nat → K) :
    (∀ q < 2 * s.nb + 2 * s.ng + 2 * s.ns, 0 ≤ computeT s v t q) ↔ s.Feasible v := by
  obtain ⟨h1, h2, -⟩ := C93_values s v t
  constructor
  · intro h
    refine ⟨fun j hj => ⟨?_, ?_⟩, fun k hk => ?_⟩
    · have := h j (by omega)
      rw [(h1 j hj).1] at this
      linarith
    · have := h (s.nb + s.ng + j) (by omega)
      rw [(h1 j hj).2] at this
      linarith
    · have := h (2 * s.nb + 2 * s.ng + k) (by omega)
      rw [h2 k hk] at this
      linarith
  · rintro ⟨f1, f2⟩ q hq
    by_cases a : q < s.nb + s.ng
    · rw [(h1 q a).1]
      linarith [(f1 q a).1]
    · by_cases b : q < 2 * s.nb + 2 * s.ng
      · obtain ⟨j, rfl⟩ : ∃ j, q = s.nb + s.ng + j := ⟨q - (s.nb + s.ng), by omega⟩
        rw [(h1 j (by omega)).2]
        linarith [(f1 j (by omega)).2]
      · obtain ⟨k, rfl⟩ : ∃ k, q = 2 * s.nb + 2 * s.ng + k := ⟨q - (2 * s.nb + 2 * s.ng), by omega⟩
        rw [h2 k (by omega)]
        linarith [f2 k (by omega)]

omit [LinearOrder K] [IsStrictOrderedRing K] in
/-- **C93**: the slacks of a dense QP are those of a QP with one stage. -/
theorem C93_dense (s : Stage K) (v t : Nat → K) : denseComputeT s v t = computeT s v t := dense_eq s v t

/-- a soft bound and a hard linear constraint: the point is feasible only thanks to the slack -/
def exS : Stage ℚ := ⟨2, 1, 1, 1, fun _ => 1, fun i _ => if i = 0 then 1 else 2,
  fun q => if q = 0 then 3 else if q = 1 then 0 else if q = 2 then -4 else if q = 3 then -10 else 0, fun j => if j = 0 then some 0 else none⟩

def exV : Nat → ℚ := fun q => if q = 0 then 1 else if q = 1 then 2 else if q = 2 then 1 else 0

example : (List.range 7).map (computeT exS exV fun _ => 7) = [0, 5, 2, 5, 1, 0, 7] := by decide +kernel

example : exS.Feasible exV := (C93_feasible exS exV fun _ => 7).1 (by decide +kernel)

example : ¬ exS.Feasible (fun q => if q = 2 then 1/2 else exV q) := fun h =>
  absurd ((C93_feasible exS _ fun _ => 7).2 h) (by decide +kernel)

/-- the entries of `t` of stages `0..N` belong to the solution -/
def Out.Current (N : Nat) (s : Nat → Stage K) (o : Out K) : Prop :=
  ∀ k ≤ N, ∀ t, ∀ q < 2 * (s k).nb + 2 * (s k).ng + 2 * (s k).ns, o.t k q = computeT (s k) (o.v k) t q

omit [LinearOrder K] [IsStrictOrderedRing K] in
/-- **C93** (partial): before residuals are computed, the slacks belong to the solution, if they did when they were marked as
computed; the solution is not changed, and a second call changes nothing. -/
theorem C93_current_partial (N : Nat) (s : Nat → Stage K) (o : Out K) (h : o.flag = true → o.Current N s) :
    (ensureT N s o).Current N s ∧ (ensureT N s o).v = o.v ∧ (ensureT N s o).flag = true ∧ ensureT N s (ensureT N s o) = ensureT N s o := by
  rcases hf : o.flag with _ | _
  · have e : ensureT N s o = { o with t := fun k => if k ≤ N then computeT (s k) (o.v k) (o.t k) else o.t k, flag := true } := by
      unfold ensureT; rw [hf]; rfl
    rw [e]
    refine ⟨fun k hk t q hq => ?_, rfl, rfl, rfl⟩
    dsimp only
    rw [if_pos hk, computeT_eq, computeT_eq]
    by_cases a : q < (s k).nb + (s k).ng
    · rw [if_pos a, if_pos a]
    · rw [if_neg a, if_neg a]
      by_cases b : q < 2 * (s k).nb + 2 * (s k).ng
      · rw [if_pos b, if_pos b]
      · rw [if_neg b, if_neg b, if_pos hq, if_pos hq]
  · have e : ensureT N s o = o := by unfold ensureT; rw [hf]; rfl
    rw [e]
    exact ⟨h hf, rfl, hf, e⟩

example : (ensureT 0 (fun _ => exS) ⟨fun _ => exV, fun _ _ => 0, false⟩).Current 0 (fun _ => exS) :=
  (C93_current_partial 0 (fun _ => exS) ⟨fun _ => exV, fun _ _ => 0, false⟩ (by intro h; cases h)).1

/-- **C93 fails in general**: setting a solution to zero sets its slacks to zero and leaves the mark that they are computed, so
that residuals are computed from slacks that do not belong to the zero solution. -/
theorem C93_current_false : ∃ o : Out ℚ, o.Current 0 (fun _ => exS) ∧ o.flag = true
    ∧ ¬ (ensureT 0 (fun _ => exS) (setToZero 0 (fun _ => exS) o)).Current 0 (fun _ => exS) := by
  refine ⟨ensureT 0 (fun _ => exS) ⟨fun _ => exV, fun _ _ => 0, false⟩, ?_, rfl, ?_⟩
  · exact (C93_current_partial 0 (fun _ => exS) ⟨fun _ => exV, fun _ _ => 0, false⟩ (by intro h; cases h)).1
  · intro h
    exact absurd (h 0 (by omega) (fun _ => 0) 0 (by decide)) (by decide +kernel)

omit [IsStrictOrderedRing K] in
/-- **C93**: norms of residuals.  If the vectors of the stages follow each other in memory, each norm is at most a tolerance exactly
if all entries of the residual of all stages are: stationarity for controls, states and slacks of stages `0..N`, dynamics of the
states of stages `1..N`, constraints and complementarity for both sides of all constraints and slacks of stages `0..N`. -/
theorem C93_norms (d : Dims) (rg rb rd rm : Nat → Nat → K) (g b dd m : Nat → K) (e : K) (he : 0 ≤ e)
    (hg : ∀ k ≤ d.N, ∀ j < d.nx k + d.nu k + 2 * d.ns k, g (start (fun k => d.nx k + d.nu k + 2 * d.ns k) k + j) = rg k j)
    (hb : ∀ k < d.N, ∀ j < d.nx (k + 1), b (start (fun k => d.nx (k + 1)) k + j) = rb k j)
    (hd : ∀ k ≤ d.N, ∀ j < 2 * d.nb k + 2 * d.ng k + 2 * d.ns k, dd (start (fun k => 2 * d.nb k + 2 * d.ng k + 2 * d.ns k) k + j) = rd k j)
    (hm : ∀ k ≤ d.N, ∀ j < 2 * d.nb k + 2 * d.ng k + 2 * d.ns k, m (start (fun k => 2 * d.nb k + 2 * d.ng k + 2 * d.ns k) k + j) = rm k j) :
    ((norms d g b dd m).1 ≤ e ↔ ∀ k ≤ d.N, ∀ j < d.nx k + d.nu k + 2 * d.ns k, |rg k j| ≤ e)
    ∧ ((norms d g b dd m).2.1 ≤ e ↔ ∀ k < d.N, ∀ j < d.nx (k + 1), |rb k j| ≤ e)
    ∧ ((norms d g b dd m).2.2.1 ≤ e ↔ ∀ k ≤ d.N, ∀ j < 2 * d.nb k + 2 * d.ng k + 2 * d.ns k, |rd k j| ≤ e)
    ∧ ((norms d g b dd m).2.2.2 ≤ e ↔ ∀ k ≤ d.N, ∀ j < 2 * d.nb k + 2 * d.ng k + 2 * d.ns k, |rm k j| ≤ e) := by
  unfold norms
  rw [lengths_eq]
  dsimp only
  refine ⟨?_, ?_, ?_, ?_⟩
  · rw [nrm_le _ _ _ he, forall_start _ _ (fun i => |g i| ≤ e)]
    exact ⟨fun h k hk j hj => hg k hk j hj ▸ h k (by omega) j hj, fun h k hk j hj => (hg k (by omega) j hj).symm ▸ h k (by omega) j hj⟩
  · rw [nrm_le _ _ _ he, forall_start _ _ (fun i => |b i| ≤ e)]
    exact ⟨fun h k hk j hj => hb k hk j hj ▸ h k (by omega) j hj, fun h k hk j hj => (hb k (by omega) j hj).symm ▸ h k (by omega) j hj⟩
  · rw [nrm_le _ _ _ he, forall_start _ _ (fun i => |dd i| ≤ e)]
    exact ⟨fun h k hk j hj => hd k hk j hj ▸ h k (by omega) j hj, fun h k hk j hj => (hd k (by omega) j hj).symm ▸ h k (by omega) j hj⟩
  · rw [nrm_le _ _ _ he, forall_start _ _ (fun i => |m i| ≤ e)]
    exact ⟨fun h k hk j hj => hm k hk j hj ▸ h k (by omega) j hj, fun h k hk j hj => (hm k (by omega) j hj).symm ▸ h k (by omega) j hj⟩

/-- two stages with one state each, a control at the first one and a bound at the second one -/
example : norms (K := ℚ) ⟨1, fun _ => 1, fun k => if k = 0 then 1 else 0, fun k => k, fun _ => 0, fun _ => 0⟩
    (fun i => [1, -3, 2, 9].getD i 0) (fun i => [-5, 9].getD i 0) (fun i => [1, -2, 9].getD i 0) (fun i => [0, 1, 9].getD i 0)
    = (3, 5, 2, 1) := by decide +kernel

end Acados.QpSlack
