import Verif.Lemmas.Convexify
import Verif.Spec.OcpQp
/-!
# Property C34: convexification
-/
namespace Acados.Conv
open Finset
open Acados.Reg (lowerSym EigFn)
variable {K : Type*} [Field K] [LinearOrder K] [IsStrictOrderedRing K]

/-! ## specification -/

/-- `z` follows the linearised dynamics -/
def Traj (D : Data K) (z : Nat → Nat → K) : Prop :=
  ∀ i < D.N, ∀ c < D.nx (i + 1),
    z (i + 1) (D.nu (i + 1) + c) = (∑ r ∈ range (D.nux i), D.BAbt i r c * z i r) + D.b i c

/-- objective of one stage; the QP solver reads the lower triangle of the Hessian -/
def stageObj (n : Nat) (H : Nat → Nat → K) (g z : Nat → K) : K :=
  (1/2) * quad n (lowerSym H) z + ∑ r ∈ range n, g r * z r

/-- objective of the QP with Hessians `H` and gradients `g` -/
def objective (D : Data K) (H : Nat → Nat → Nat → K) (g : Nat → Nat → K) (z : Nat → Nat → K) : K :=
  ∑ i ∈ range (D.N + 1), stageObj (D.nux i) (H i) (g i) (z i)

/-- states of stage 0 -/
def x0 (D : Data K) (z : Nat → Nat → K) : Nat → K := fun c => z 0 (D.nu 0 + c)

/-! ## C34: the objective on feasible trajectories -/

theorem stage_obj (E : Ext K) (D : Data K) (ii : Nat) (s : Mem K)
    (hx : D.nx (ii + 1) ≤ D.nx ii) (hQ : SymOn (D.nx (ii + 1)) s.Qbar) (z x' : Nat → K)
    (hz : ∀ c < D.nx (ii + 1), x' c = (∑ r ∈ range (D.nux ii), D.BAbt ii r c * z r) + D.b ii c) :
    stageObj (D.nux ii) ((stage E D ii s).RSQ ii) ((stage E D ii s).rq ii) z
      + (1/2) * quad (D.nx ii) (stage E D ii s).Qbar (fun c => z (D.nu ii + c))
      = stageObj (D.nux ii) ((stage E D ii s).orig ii)
          ((stage E D ii s).orig ii (D.nux ii)) z
        + (1/2) * quad (D.nx (ii + 1)) s.Qbar x'
        - (1/2) * quad (D.nx (ii + 1)) s.Qbar (D.b ii) := by
  have h1 := stage_split E D ii s hx hQ z
  have h2 : quad (D.nux ii) (G D ii s.Qbar) z = quad (D.nx (ii + 1)) s.Qbar
      (fun l => ∑ r ∈ range (D.nux ii), D.BAbt ii r l * z r) := quad_congruence _ _ _ _ _
  have h3 := quad_add_vec (D.nx (ii + 1)) s.Qbar hQ
    (fun l => ∑ r ∈ range (D.nux ii), D.BAbt ii r l * z r) (D.b ii)
  have h4 : quad (D.nx (ii + 1)) s.Qbar x' = quad (D.nx (ii + 1)) s.Qbar
      (fun l => (∑ r ∈ range (D.nux ii), D.BAbt ii r l * z r) + D.b ii l) := by
    unfold quad
    refine sum_congr rfl fun i hi => ?_
    rw [hz i (mem_range.1 hi)]
    congr 1
    exact sum_congr rfl fun j hj => by rw [hz j (mem_range.1 hj)]
  have h5 : ∑ r ∈ range (D.nux ii), (stage E D ii s).rq ii r * z r
      = ∑ r ∈ range (D.nux ii), (stage E D ii s).orig ii (D.nux ii) r * z r
        + ∑ l ∈ range (D.nx (ii + 1)), D.b ii l * ∑ k ∈ range (D.nx (ii + 1)),
          s.Qbar l k * ∑ r ∈ range (D.nux ii), D.BAbt ii r k * z r := by
    have : ∀ r ∈ range (D.nux ii), (stage E D ii s).rq ii r * z r
        = (stage E D ii s).orig ii (D.nux ii) r * z r + ∑ l ∈ range (D.nx (ii + 1)),
          D.b ii l * ∑ k ∈ range (D.nx (ii + 1)), s.Qbar l k * (D.BAbt ii r k * z r) := by
      intro r hr
      rw [stage_rq E D ii s hx r (mem_range.1 hr), stage_orig_row E D ii s r (mem_range.1 hr),
        add_mul, sum_mul]
      congr 1
      refine sum_congr rfl fun l _ => ?_
      rw [mul_assoc, sum_mul]
      congr 1
      exact sum_congr rfl fun k _ => by ring
    rw [sum_congr rfl this, sum_add_distrib]
    congr 1
    rw [sum_comm]
    refine sum_congr rfl fun l _ => ?_
    rw [← mul_sum, sum_comm]
    congr 1
    refine sum_congr rfl fun k _ => ?_
    rw [← mul_sum]
  unfold stageObj
  rw [h4, h3, h5]
  rw [h2] at h1
  linear_combination (1/2) * h1

theorem terminal_obj (D : Data K) (s : Mem K) (z : Nat → K) :
    stageObj (D.nux D.N) ((terminal D s).RSQ D.N) (s.rq D.N) z
      + (1/2) * quad (D.nx D.N) (terminal D s).Qbar (fun c => z (D.nu D.N + c))
      = stageObj (D.nux D.N) ((terminal D s).orig D.N)
          ((terminal D s).orig D.N (D.nux D.N)) z := by
  have h2 := quad_block (D.nu D.N) (D.nx D.N)
    (fun i j => lowerSym ((terminal D s).orig D.N) i j - lowerSym ((terminal D s).RSQ D.N) i j) z
    (fun i hi j hj hor => by rw [terminal_block D s i j hor hi hj]; ring)
  have h3 : quad (D.nx D.N) (terminal D s).Qbar (fun i => z (D.nu D.N + i))
      = quad (D.nux D.N) (fun i j => lowerSym ((terminal D s).orig D.N) i j
        - lowerSym ((terminal D s).RSQ D.N) i j) z := by
    refine Eq.trans ?_ h2.symm
    exact quad_congr _ _ _ _ fun i hi j hj => terminal_Qbar D s i j hi hj
  have h1 : quad (D.nux D.N) (lowerSym ((terminal D s).orig D.N)) z
      = quad (D.nux D.N) (fun i j => lowerSym ((terminal D s).RSQ D.N) i j +
        (lowerSym ((terminal D s).orig D.N) i j - lowerSym ((terminal D s).RSQ D.N) i j)) z :=
    quad_congr _ _ _ z fun i _ j _ => by ring
  rw [quad_add, ← h3] at h1
  have h4 : ∑ r ∈ range (D.nux D.N), s.rq D.N r * z r
      = ∑ r ∈ range (D.nux D.N), (terminal D s).orig D.N (D.nux D.N) r * z r :=
    sum_congr rfl fun r hr => by rw [terminal_orig_row D s r (mem_range.1 hr)]
  unfold stageObj
  rw [h4, h1]; ring

/-- the objective of the stages `D.N - t … D.N` -/
theorem run_obj (E : Ext K) (D : Data K) (s : Mem K) (hx : ∀ i < D.N, D.nx (i + 1) ≤ D.nx i)
    (t : Nat) (ht : t ≤ D.N) :
    ∃ C, ∀ z, Traj D z →
      ∑ i ∈ Ico (D.N - t) (D.N + 1), stageObj (D.nux i) ((run E D s t).RSQ i) ((run E D s t).rq i) (z i)
        + (1/2) * quad (D.nx (D.N - t)) (run E D s t).Qbar (fun c => z (D.N - t) (D.nu (D.N - t) + c))
      = ∑ i ∈ Ico (D.N - t) (D.N + 1), stageObj (D.nux i) ((run E D s t).orig i)
          ((run E D s t).orig i (D.nux i)) (z i) + C := by
  induction t with
  | zero =>
    refine ⟨0, fun z _ => ?_⟩
    simp only [Nat.sub_zero, Nat.Ico_succ_singleton, sum_singleton, add_zero]
    exact terminal_obj D s (z D.N)
  | succ t ih =>
    obtain ⟨C, hC⟩ := ih (by omega)
    obtain ⟨k, hk⟩ : ∃ k, k = D.N - (t + 1) := ⟨_, rfl⟩
    have hkN : k < D.N := by omega
    have hk1 : D.N - t = k + 1 := by omega
    refine ⟨C - (1/2) * quad (D.nx (k + 1)) (run E D s t).Qbar (D.b k), fun z hz => ?_⟩
    have h0 := hC z hz
    have hQ : SymOn (D.nx (k + 1)) (run E D s t).Qbar := by
      rw [← hk1]; exact run_Qbar_sym E D s t
    rw [hk1] at h0
    have h1 := stage_obj E D k (run E D s t) (hx k hkN) hQ (z k)
      (fun c => z (k + 1) (D.nu (k + 1) + c)) (fun c hc => hz k hkN c hc)
    rw [← hk]
    have hrun : run E D s (t + 1) = stage E D k (run E D s t) := by rw [run, hk]
    rw [hrun, sum_eq_sum_Ico_succ_bot (show k < D.N + 1 by omega)
        (fun i => stageObj (D.nux i) ((stage E D k (run E D s t)).RSQ i)
          ((stage E D k (run E D s t)).rq i) (z i)),
      sum_eq_sum_Ico_succ_bot (show k < D.N + 1 by omega)
        (fun i => stageObj (D.nux i) ((stage E D k (run E D s t)).orig i)
          ((stage E D k (run E D s t)).orig i (D.nux i)) (z i))]
    have e1 : ∑ i ∈ Ico (k + 1) (D.N + 1), stageObj (D.nux i) ((stage E D k (run E D s t)).RSQ i)
        ((stage E D k (run E D s t)).rq i) (z i)
        = ∑ i ∈ Ico (k + 1) (D.N + 1), stageObj (D.nux i) ((run E D s t).RSQ i)
          ((run E D s t).rq i) (z i) := by
      refine sum_congr rfl fun i hi => ?_
      have := mem_Ico.1 hi
      obtain ⟨f1, f2, _⟩ := stage_frame E D k (run E D s t) i (by omega)
      rw [f1, f2]
    have e2 : ∑ i ∈ Ico (k + 1) (D.N + 1), stageObj (D.nux i) ((stage E D k (run E D s t)).orig i)
        ((stage E D k (run E D s t)).orig i (D.nux i)) (z i)
        = ∑ i ∈ Ico (k + 1) (D.N + 1), stageObj (D.nux i) ((run E D s t).orig i)
          ((run E D s t).orig i (D.nux i)) (z i) := by
      refine sum_congr rfl fun i hi => ?_
      have := mem_Ico.1 hi
      obtain ⟨_, _, f3, _⟩ := stage_frame E D k (run E D s t) i (by omega)
      rw [f3]
    rw [e1, e2]
    linear_combination h0 + h1

/-- **C34** (objective): for every horizon, dimensions with non-increasing state size, dynamics,
Hessians and gradients there are a constant and a symmetric matrix `Q` such that, on every trajectory
of the linearised dynamics, the convexified objective equals the backup objective plus
`-½ x₀ᵀ Q x₀` plus the constant: the change depends on the initial state only. -/
theorem C34_objective (E : Ext K) (D : Data K) (s : Mem K) (hx : ∀ i < D.N, D.nx (i + 1) ≤ D.nx i) :
    let R := regularize E D s
    ∃ C Q, SymOn (D.nx 0) Q ∧ ∀ z, Traj D z →
      objective D R.RSQ R.rq z = objective D R.orig (fun i => R.orig i (D.nux i)) z
        - (1/2) * quad (D.nx 0) Q (x0 D z) + C := by
  intro R
  have hR : R = run E D s D.N := regularize_run E D s
  obtain ⟨C, hC⟩ := run_obj E D s hx D.N le_rfl
  refine ⟨C, (run E D s D.N).Qbar, ?_, fun z hz => ?_⟩
  · have := run_Qbar_sym E D s D.N
    rwa [Nat.sub_self] at this
  · have h := hC z hz
    rw [Nat.sub_self, ← hR] at h
    rw [← hR]
    unfold objective x0
    rw [range_eq_Ico]
    linear_combination h

/-- **C34** (backup): for every stage that was not flagged for projection — and always for the
terminal stage — the backup objective is the one that was passed in. -/
theorem C34_backup_is_input (E : Ext K) (D : Data K) (s : Mem K) (i : Nat) (hi : i ≤ D.N)
    (hreg : i < D.N → (regularize E D s).reg i = false) :
    (∀ r < D.nux i, ∀ c < D.nux i, (regularize E D s).orig i r c = s.RSQ i r c) ∧
    (∀ r < D.nux i, (regularize E D s).orig i (D.nux i) r = s.rq i r) := by
  rw [regularize_run] at *
  rcases Nat.lt_or_ge i D.N with h | h
  · obtain ⟨_, _, h3, h4⟩ := run_done E D s i h D.N le_rfl (by omega)
    obtain ⟨k1, k2⟩ := run_keep E D s (D.N - (i + 1)) i (by omega)
    have hr := hreg h
    rw [h4] at hr
    rw [h3]
    refine ⟨fun r hr' c hc => ?_, fun r hr' => ?_⟩
    · rw [stage_orig_block E D i _ hr r c hr' hc, k1]
    · rw [stage_orig_row E D i _ r hr', k2]
  · obtain rfl : i = D.N := le_antisymm hi h
    obtain ⟨_, _, h3⟩ := run_terminal E D s D.N le_rfl
    rw [h3]
    exact ⟨fun r hr c hc => terminal_orig_block D s r c hr hc, fun r hr => terminal_orig_row D s r hr⟩

/-- **C34** (minimisers): if no stage was flagged, then among the trajectories with the same initial
state the convexified QP and the original QP order any two trajectories identically. -/
theorem C34_same_order (E : Ext K) (D : Data K) (s : Mem K) (hx : ∀ i < D.N, D.nx (i + 1) ≤ D.nx i)
    (hreg : ∀ i < D.N, (regularize E D s).reg i = false) (z z' : Nat → Nat → K) (hz : Traj D z)
    (hz' : Traj D z') (h0 : ∀ c < D.nx 0, x0 D z c = x0 D z' c) :
    objective D (regularize E D s).RSQ (regularize E D s).rq z
        - objective D (regularize E D s).RSQ (regularize E D s).rq z'
      = objective D s.RSQ s.rq z - objective D s.RSQ s.rq z' := by
  obtain ⟨C, Q, _, hC⟩ := C34_objective E D s hx
  have hq : quad (D.nx 0) Q (x0 D z) = quad (D.nx 0) Q (x0 D z') := by
    unfold quad
    refine sum_congr rfl fun i hi => ?_
    rw [h0 i (mem_range.1 hi)]
    congr 1
    exact sum_congr rfl fun j hj => by rw [h0 j (mem_range.1 hj)]
  have ho : ∀ z, objective D (regularize E D s).orig
      (fun i => (regularize E D s).orig i (D.nux i)) z = objective D s.RSQ s.rq z := by
    intro z
    unfold objective
    refine sum_congr rfl fun i hi => ?_
    obtain ⟨h1, h2⟩ := C34_backup_is_input E D s i (by have := mem_range.1 hi; omega) (hreg i)
    unfold stageObj
    congr 1
    · congr 1
      refine quad_congr _ _ _ _ (lowerSym_congr _ _ _ fun r hr c hc => h1 r hr c (by omega))
    · exact sum_congr rfl fun r hr => congrArg (· * z i r) (h2 r (mem_range.1 hr))
  rw [hC z hz, hC z' hz', ho, ho, hq]; ring

/-! ## convexity -/

/-- the external factorisation solves its task: for a positive definite leading block (lower
triangle) the triangular solve returns `X` with `X·Lᵀ = S` for a factor `L` with `L·Lᵀ = R` -/
def FacOk (E : Ext K) : Prop :=
  ∀ u x A S, (∃ c, 0 < c ∧ QuadGe u (lowerSym A) c) →
    ∃ L : Nat → Nat → K,
      (∀ i < u, ∀ j < u, lowerSym A i j = ∑ k ∈ range u, L i k * L j k) ∧
      ∀ i < x, ∀ j < u, ∑ k ∈ range u, E.trsm x u (E.potrf u A) S i k * L j k = S i j

/-- the eigenvalue routine is exact (it reads the triangle `j ≤ i` of the row-major array) -/
def EigAll (eig : EigFn K) : Prop :=
  ∀ n A, EigOk n (lowerSym A) (eig n A).1 (eig n A).2

theorem quad_gram (n m : Nat) (F : Nat → Nat → K) (z : Nat → K) :
    quad n (fun i j => ∑ k ∈ range m, F i k * F j k) z
      = ∑ k ∈ range m, (∑ i ∈ range n, F i k * z i) ^ 2 := by
  have h := quad_congruence n m F (fun l k => if l = k then 1 else 0) z
  have e1 : quad n (fun i j => ∑ k ∈ range m, F i k * F j k) z
      = quad n (fun i j => ∑ l ∈ range m, F i l * ∑ k ∈ range m, F j k * (if l = k then 1 else 0)) z := by
    refine quad_congr _ _ _ _ fun i _ j _ => sum_congr rfl fun l hl => ?_
    simp only [mul_ite, mul_one, mul_zero, sum_ite_eq, if_pos hl]
  rw [e1, h]
  unfold quad
  refine sum_congr rfl fun l hl => ?_
  simp only [ite_mul, one_mul, zero_mul, sum_ite_eq, if_pos hl, sq]

/-- **C34** (convexity of one stage): if the `R` block that is factorised is positive definite, the
stage Hessian handed to the solver is convex, with curvature at least `delta` in the states. -/
theorem stage_convex (E : Ext K) (D : Data K) (ii : Nat) (s : Mem K) (hF : FacOk E)
    (hR : ∃ c, 0 < c ∧ QuadGe (D.nu ii) (lowerSym (stA3 E D ii s)) c) (z : Nat → K) :
    D.delta * sqn (D.nx ii) (fun c => z (D.nu ii + c))
      ≤ quad (D.nux ii) (lowerSym ((stage E D ii s).RSQ ii)) z := by
  have e1 : (stage E D ii s).RSQ ii = stA4 E D ii s := by simp only [stage, Function.update_self]
  rw [e1]
  obtain ⟨L, hL, hS⟩ := hF (D.nu ii) (D.nx ii) (stA3 E D ii s)
    (fun i j => stA3 E D ii s (D.nu ii + i) j) hR
  set T := E.trsm (D.nx ii) (D.nu ii) (E.potrf (D.nu ii) (stA3 E D ii s))
    (fun i j => stA3 E D ii s (D.nu ii + i) j) with hT
  let F : Nat → Nat → K := fun i k => if i < D.nu ii then L i k else T (i - D.nu ii) k
  let M : Nat → Nat → K := fun i j => if D.nu ii ≤ i ∧ i = j then D.delta else 0
  have hlow : ∀ i < D.nux ii, ∀ j ≤ i, stA4 E D ii s i j
      = ∑ k ∈ range (D.nu ii), F i k * F j k + M i j := by
    intro i hi j hj
    unfold Data.nux at hi
    by_cases hju : j < D.nu ii
    · have e : stA4 E D ii s i j = stA3 E D ii s i j := by
        simp only [stA4]; rw [if_neg (by omega)]
      have hM : M i j = 0 := by simp only [M]; rw [if_neg (by omega)]
      rw [e, hM, add_zero]
      by_cases hiu : i < D.nu ii
      · have := hL i hiu j hju
        unfold lowerSym at this
        rw [if_pos hj] at this
        rw [this]
        exact sum_congr rfl fun k _ => by simp only [F, if_pos hiu, if_pos hju]
      · have := hS (i - D.nu ii) (by omega) j hju
        rw [Nat.add_sub_cancel' (by omega)] at this
        rw [← this]
        exact sum_congr rfl fun k _ => by simp only [F, if_neg hiu, if_pos hju]
    · simp only [stA4]
      rw [if_pos ⟨by omega, hi, by omega, hj⟩, add_comm]
      congr 1
      · refine sum_congr rfl fun k _ => ?_
        simp only [F]
        rw [if_neg (by omega), if_neg hju]
      · simp only [M]
        by_cases h : i = j
        · rw [if_pos h, if_pos ⟨by omega, h⟩]
        · rw [if_neg h, if_neg (by tauto)]
  have hall : ∀ i < D.nux ii, ∀ j < D.nux ii, lowerSym (stA4 E D ii s) i j
      = ∑ k ∈ range (D.nu ii), F i k * F j k + M i j := by
    intro i hi j hj
    unfold lowerSym
    by_cases h : j ≤ i
    · rw [if_pos h, hlow i hi j h]
    · rw [if_neg h, hlow j hj i (by omega)]
      congr 1
      · exact sum_congr rfl fun k _ => by ring
      · simp only [M]
        rw [if_neg (by omega), if_neg (by omega)]
  rw [quad_congr _ _ _ z hall, quad_add, quad_gram]
  have hM : quad (D.nux ii) M z = D.delta * sqn (D.nx ii) (fun c => z (D.nu ii + c)) := by
    have := quad_block (D.nu ii) (D.nx ii) M z (fun i _ j _ h => by
      simp only [M]; rw [if_neg (by omega)])
    refine this.trans ?_
    unfold quad sqn
    rw [mul_sum]
    refine sum_congr rfl fun i hi => ?_
    rw [sum_eq_single i]
    · have : M (D.nu ii + i) (D.nu ii + i) = D.delta := if_pos ⟨by omega, rfl⟩
      simp only [this]; ring
    · intro j _ hj; simp only [M]; rw [if_neg (by omega), zero_mul]
    · intro h; exact absurd hi h
  rw [hM]
  have : 0 ≤ ∑ k ∈ range (D.nu ii), (∑ i ∈ range (D.nux ii), F i k * z i) ^ 2 :=
    sum_nonneg fun k _ => sq_nonneg _
  linarith

/-- the leading block of a matrix `≥ c·I` is `≥ c·I` -/
theorem quadGe_leading (u x : Nat) (A : Nat → Nat → K) (c : K) (h : QuadGe (u + x) A c) :
    QuadGe u A c := by
  intro z
  have := h fun i => if i < u then z i else 0
  have e1 : sqn (u + x) (fun i => if i < u then z i else 0) = sqn u z := by
    unfold sqn
    rw [sum_range_add]
    have : ∑ i ∈ range x, (if u + i < u then z (u + i) else 0) ^ 2 = 0 :=
      sum_eq_zero fun i _ => by rw [if_neg (by omega)]; ring
    rw [this, add_zero]
    exact sum_congr rfl fun i hi => congrArg (· ^ 2) (if_pos (mem_range.1 hi))
  have e2 : quad (u + x) A (fun i => if i < u then z i else 0) = quad u A z := by
    unfold quad
    rw [sum_range_add]
    have : ∑ i ∈ range x, (if u + i < u then z (u + i) else 0) *
        ∑ j ∈ range (u + x), A (u + i) j * (if j < u then z j else 0) = 0 :=
      sum_eq_zero fun i _ => by rw [if_neg (by omega)]; ring
    rw [this, add_zero]
    refine sum_congr rfl fun i hi => ?_
    have hz : (fun i => if i < u then z i else 0) i = z i := if_pos (mem_range.1 hi)
    rw [hz, sum_range_add]
    congr 1
    have : ∑ j ∈ range x, A i (u + j) * (if u + j < u then z (u + j) else 0) = 0 :=
      sum_eq_zero fun j _ => by rw [if_neg (by omega)]; ring
    rw [this, add_zero]
    exact sum_congr rfl fun j hj => congrArg (A i j * ·) (if_pos (mem_range.1 hj))
  rwa [e1, e2] at this

theorem stA3_pd (E : Ext K) (D : Data K) (ii : Nat) (s : Mem K) (hE : EigAll E.eig)
    (hu : ∀ i < D.nu ii, ∀ j < i, stA2 D ii s i j = stA2 D ii s j i) :
    ∃ c, 0 < c ∧ QuadGe (D.nu ii) (lowerSym (stA3 E D ii s)) c := by
  by_cases hr : stReg E D ii s = true
  · refine ⟨1 / 10000, by norm_num, quadGe_leading (D.nu ii) (D.nx ii) _ _ ?_⟩
    have hok := hE (D.nux ii) (fun i j => stA2 D ii s j i)
    have h := (Reg.reg_core (D.nux ii) _ _ _ (fun k => Reg.projectVal (1 / 10000)
      ((E.eig (D.nux ii) (fun i j => stA2 D ii s j i)).2 k)) hok (1 / 10000)
      (fun k _ => Reg.projectVal_ge _ _)).2.1
    intro x
    refine le_trans (h x) (le_of_eq ?_)
    refine quad_congr (D.nux ii) _ _ x fun i hi j hj => ?_
    have hp : ∀ i < D.nux ii, ∀ j < D.nux ii, stA3 E D ii s i j
        = Reg.reconstruct (D.nux ii) (E.eig (D.nux ii) (fun i j => stA2 D ii s j i)).1
          (fun k => Reg.projectVal (1 / 10000)
            ((E.eig (D.nux ii) (fun i j => stA2 D ii s j i)).2 k)) i j := by
      intro i hi j hj
      rw [stA3, if_pos hr, Reg.pack, if_pos ⟨hi, hj⟩, Reg.project]
      exact Reg.reconstruct_sym _ _ _ _ _
    unfold lowerSym
    split
    · exact (hp i hi j hj).symm
    · rw [hp j hj i hi]; exact Reg.reconstruct_sym _ _ _ _ _
  · refine ⟨1 / 10000000000, by norm_num, ?_⟩
    have hok := hE (D.nu ii) (fun i j => stA2 D ii s j i)
    have hd : ∀ k < D.nu ii, 1 / 10000000000 ≤
        (E.eig (D.nu ii) (fun i j => stA2 D ii s j i)).2 k := by
      intro k hk
      by_contra hc
      refine hr ?_
      rw [stReg, List.any_eq_true]
      exact ⟨k, List.mem_range.2 hk, decide_eq_true (not_le.1 hc)⟩
    have h := Reg.quad_ge_of_dec (D.nu ii) _ _ _ _ hok.rows hok.dec hd
    intro x
    refine le_trans (h x) (le_of_eq ?_)
    refine quad_congr (D.nu ii) _ _ x fun i hi j hj => ?_
    rw [stA3, if_neg hr]
    unfold lowerSym
    rcases lt_trichotomy i j with hij | rfl | hij
    · rw [if_neg (by omega), if_neg (by omega)]; exact (hu j hj i hij).symm
    · rfl
    · rw [if_pos hij.le, if_pos hij.le]; exact (hu i hi j hij).symm

/-- **C34** (convexity, partial): if every stage has at most one control, every stage Hessian handed
to the solver is convex and has curvature at least `delta` in the states; the terminal Hessian (no
controls) is `delta·I`.  Missing: more than one control per stage, where it is false
(`C34_stale_triangle`). -/
theorem C34_convex_partial (E : Ext K) (D : Data K) (s : Mem K) (hE : EigAll E.eig) (hF : FacOk E)
    (hu : ∀ i < D.N, D.nu i ≤ 1) (huN : D.nu D.N = 0) (i : Nat) (hi : i ≤ D.N) (z : Nat → K) :
    D.delta * sqn (D.nx i) (fun c => z (D.nu i + c))
      ≤ quad (D.nux i) (lowerSym ((regularize E D s).RSQ i)) z := by
  rw [regularize_run]
  rcases Nat.lt_or_ge i D.N with h | h
  · obtain ⟨h1, _⟩ := run_done E D s i h D.N le_rfl (by omega)
    rw [h1]
    refine stage_convex E D i _ hF (stA3_pd E D i _ hE fun a ha b hb => ?_) z
    have := hu i h
    omega
  · obtain rfl : i = D.N := le_antisymm hi h
    obtain ⟨h1, _⟩ := run_terminal E D s D.N le_rfl
    rw [h1]
    have hn : D.nux D.N = D.nx D.N := by unfold Data.nux; omega
    rw [hn, huN]
    unfold quad sqn
    rw [mul_sum]
    refine le_of_eq (sum_congr rfl fun a ha => ?_)
    have ha' := mem_range.1 ha
    rw [sum_eq_single a]
    · simp only [terminal, Function.update_self, lowerSym, huN]
      rw [if_pos le_rfl, if_pos ⟨by omega, by omega, by omega, by omega⟩, if_pos trivial, Nat.zero_add]
      ring
    · intro b hb hab
      have hb' := mem_range.1 hb
      simp only [terminal, Function.update_self, lowerSym, huN]
      have e : ∀ a b, a < D.nx D.N → b < D.nx D.N → a ≠ b →
          (if 0 ≤ a ∧ a < 0 + D.nx D.N ∧ 0 ≤ b ∧ b < 0 + D.nx D.N then
            (if a - 0 = b - 0 then D.delta else 0)
            else rowin (D.nux D.N) (s.rq D.N) (D.nux D.N) (s.RSQ D.N) a b) = 0 := by
        intro a b h1 h2 h3
        rw [if_pos ⟨by omega, by omega, by omega, by omega⟩, if_neg (by omega)]
      split
      · rw [e a b ha' hb' (Ne.symm hab), zero_mul]
      · rw [e b a hb' ha' hab, zero_mul]
    · intro h; exact absurd ha h

/-- data of the counterexample: horizon 1, two controls, one state -/
def cexD : Data K where
  N := 1
  nx := fun _ => 1
  nu := fun i => if i = 0 then 2 else 0
  BAbt := fun _ r _ => if r < 2 then 1 else 0
  b := fun _ _ => 0
  delta := 1 / 10
def cexM : Mem K where
  RSQ := fun i r c => if i = 0 then (if r = c then 1 else 0) else -(8 / 10)
  rq := fun _ _ => 0
  orig := fun _ _ _ => 0
  BAQ := fun _ _ => 0
  Qbar := fun _ _ => 0
  reg := fun _ => false

/-- **C34** (counterexample): with two controls the eigenvalue test reads the triangle of `R` that
was not updated.  For this well-posed input, exact eigenvalues and any factorisation, no
regularisation is applied and the convexified stage Hessian has a direction of negative curvature. -/
theorem C34_stale_triangle (E : Ext K) (hE : EigAll E.eig) :
    (regularize E cexD (cexM : Mem K)).reg 0 = false ∧
    ∃ z, quad ((cexD (K := K)).nux 0) (lowerSym ((regularize E cexD cexM).RSQ 0)) z < 0 := by
  have hreg : regularize E cexD (cexM : Mem K) = stage E cexD 0 (terminal cexD cexM) := rfl
  have hQ : (terminal cexD (cexM : Mem K)).Qbar 0 0 = -(9 / 10) := by
    simp [terminal, cexD, cexM, Reg.trtrL, rowin, Data.nux]
    norm_num
  have hR : (terminal cexD (cexM : Mem K)).RSQ 0 = (cexM : Mem K).RSQ 0 := by
    simp [terminal, cexD]
  have hA2 : ∀ i < 2, ∀ j < 2, stA2 cexD 0 (terminal cexD (cexM : Mem K)) i j
      = if j ≤ i then (if i = j then 1 / 10 else -(9 / 10)) else 0 := by
    intro i hi j hj
    generalize hT : terminal cexD (cexM : Mem K) = T at hQ hR
    simp only [stA2, stA1, rowin, stBAQ, hR]
    simp only [cexD, Data.nux, Data.BAb, cexM, sum_range_one, hQ]
    interval_cases i <;> interval_cases j <;> simp [hQ] <;> norm_num
  have hr : stReg E cexD 0 (terminal cexD (cexM : Mem K)) = false := by
    rw [stReg, List.any_eq_false]
    intro k hk
    have hk' : k < 2 := List.mem_range.1 hk
    have hok := hE 2 (fun i j => stA2 cexD 0 (terminal cexD (cexM : Mem K)) j i)
    have := Reg.eig_ge 2 _ _ _ hok (1 / 10) (fun x => le_of_eq (by
      unfold sqn quad lowerSym
      simp only [sum_range_succ, sum_range_zero]
      simp [hA2]; ring)) k hk'
    rw [decide_eq_true_iff, not_lt]
    exact le_trans (by norm_num) this
  refine ⟨by rw [hreg]; simp only [stage, Function.update_self, hr], fun i => if i < 2 then 1 else 0, ?_⟩
  rw [hreg]
  have e1 : (stage E cexD 0 (terminal cexD (cexM : Mem K))).RSQ 0
      = stA4 E cexD 0 (terminal cexD (cexM : Mem K)) := by simp only [stage, Function.update_self]
  have e2 : ∀ i < 2, ∀ j < 2, stA4 E cexD 0 (terminal cexD (cexM : Mem K)) i j
      = stA2 cexD 0 (terminal cexD (cexM : Mem K)) i j := by
    intro i hi j hj
    have hu : (cexD (K := K)).nu 0 = 2 := rfl
    simp only [stA4, hu]
    rw [if_neg (by omega), stA3, if_neg (by rw [hr]; decide)]
  rw [e1]
  have hn : (cexD (K := K)).nux 0 = 3 := rfl
  rw [hn]
  unfold quad
  simp only [sum_range_succ, sum_range_zero]
  simp [lowerSym, e2, hA2]
  norm_num

/-! ## C55: multipliers of the dynamics -/

open Acados.QpScal (Qp Sol Kkt lagUx lagSl lagSu Feasible WF)

/-- the QP `q` with Hessians `H` (lower triangles) and gradients `g` -/
def withHg (q : Qp K) (H : Nat → Nat → Nat → K) (g : Nat → Nat → K) : Qp K :=
  { q with st := fun i => { q.st i with H := lowerSym (H i), g := g i } }

/-- the data the convexification reads from the QP -/
def dataOf (q : Qp K) (delta : K) : Data K where
  N := q.N
  nx := q.nx
  nu := q.nu
  BAbt := fun i => (q.st i).BAbt
  b := fun i => (q.st i).b
  delta := delta
def conOf (q : Qp K) : Con K where
  nb := fun i => (q.st i).nb
  ng := fun i => (q.st i).ng
  idxb := fun i => (q.st i).idxb
  DCt := fun i => (q.st i).DCt

/-- the solution with the recovered dynamics multipliers -/
def recovered (q : Qp K) (delta : K) (s : Mem K) (w : Sol K) : Sol K :=
  { w with pi := fun i => recoverPi (dataOf q delta) (conOf q) s w.ux w.lam (q.N - 1 - i) }

/-- one row of the stationarity conditions of a stage -/
theorem stage_row (E : Ext K) (D : Data K) (ii : Nat) (s : Mem K)
    (hx : D.nx (ii + 1) ≤ D.nx ii) (hQ : SymOn (D.nx (ii + 1)) s.Qbar) (z x' : Nat → K)
    (hz : ∀ c < D.nx (ii + 1), x' c = (∑ r ∈ range (D.nux ii), D.BAbt ii r c * z r) + D.b ii c)
    (r : Nat) (hr : r < D.nux ii) :
    (∑ c ∈ range (D.nux ii), lowerSym ((stage E D ii s).orig ii) r c * z c)
      + (stage E D ii s).orig ii (D.nux ii) r
      + ∑ c ∈ range (D.nx (ii + 1)), D.BAbt ii r c * ∑ l ∈ range (D.nx (ii + 1)), s.Qbar c l * x' l
    = (∑ c ∈ range (D.nux ii), lowerSym ((stage E D ii s).RSQ ii) r c * z c)
      + (stage E D ii s).rq ii r
      + if D.nu ii ≤ r then ∑ l ∈ range (D.nx ii),
          (stage E D ii s).Qbar (r - D.nu ii) l * z (D.nu ii + l) else 0 := by
  have e1 : (stage E D ii s).RSQ ii = stA4 E D ii s := by simp only [stage, Function.update_self]
  have e2 : (stage E D ii s).orig ii = stOrig E D ii s := by simp only [stage, Function.update_self]
  have h1 : ∑ c ∈ range (D.nux ii), lowerSym (stA3 E D ii s) r c * z c
      = (∑ c ∈ range (D.nux ii), lowerSym (stA4 E D ii s) r c * z c)
        + if D.nu ii ≤ r then ∑ l ∈ range (D.nx ii),
          (stage E D ii s).Qbar (r - D.nu ii) l * z (D.nu ii + l) else 0 := by
    unfold Data.nux at hr ⊢
    rw [sum_range_add, sum_range_add, add_assoc]
    congr 1
    · exact sum_congr rfl fun c hc => by rw [stA4_left E D ii s r c (Or.inr (mem_range.1 hc))]
    · by_cases h : D.nu ii ≤ r
      · rw [if_pos h, ← sum_add_distrib]
        refine sum_congr rfl fun c hc => ?_
        rw [stage_Qbar E D ii s (r - D.nu ii) c (by omega) (mem_range.1 hc), Nat.add_sub_cancel' h]
        ring
      · rw [if_neg h, add_zero]
        exact sum_congr rfl fun c hc => by rw [stA4_left E D ii s r _ (Or.inl (by omega))]
  have h2 : ∑ c ∈ range (D.nux ii), lowerSym (stA3 E D ii s) r c * z c
      = (∑ c ∈ range (D.nux ii), lowerSym (stOrig E D ii s) r c * z c)
        + ∑ c ∈ range (D.nux ii), G D ii s.Qbar r c * z c := by
    rw [← sum_add_distrib]
    refine sum_congr rfl fun c hc => ?_
    rw [lowerSym_orig E D ii s hx hQ r c hr (mem_range.1 hc)]; ring
  have h3 : ∑ c ∈ range (D.nx (ii + 1)), D.BAbt ii r c * ∑ l ∈ range (D.nx (ii + 1)), s.Qbar c l * x' l
      = (∑ c ∈ range (D.nux ii), G D ii s.Qbar r c * z c)
        + ∑ c ∈ range (D.nx (ii + 1)), D.BAbt ii r c * ∑ l ∈ range (D.nx (ii + 1)), s.Qbar c l * D.b ii l := by
    unfold G
    have : ∀ c ∈ range (D.nx (ii + 1)), D.BAbt ii r c * ∑ l ∈ range (D.nx (ii + 1)), s.Qbar c l * x' l
        = (∑ k ∈ range (D.nux ii), (D.BAbt ii r c * ∑ l ∈ range (D.nx (ii + 1)),
            D.BAbt ii k l * s.Qbar c l) * z k)
          + D.BAbt ii r c * ∑ l ∈ range (D.nx (ii + 1)), s.Qbar c l * D.b ii l := by
      intro c _
      have h : ∑ l ∈ range (D.nx (ii + 1)), s.Qbar c l * x' l
          = (∑ k ∈ range (D.nux ii), (∑ l ∈ range (D.nx (ii + 1)), D.BAbt ii k l * s.Qbar c l) * z k)
            + ∑ l ∈ range (D.nx (ii + 1)), s.Qbar c l * D.b ii l := by
        simp only [sum_mul]
        rw [sum_comm, ← sum_add_distrib]
        refine sum_congr rfl fun l hl => ?_
        rw [hz l (mem_range.1 hl), mul_add, mul_sum]
        congr 1
        exact sum_congr rfl fun k _ => by ring
      rw [h, mul_add, mul_sum]
      congr 1
      exact sum_congr rfl fun k _ => by ring
    rw [sum_congr rfl this, sum_add_distrib, sum_comm]
    congr 1
    exact sum_congr rfl fun k _ => by rw [sum_mul]
  have h4 := stage_rq E D ii s hx r hr
  have h5 : ∑ l ∈ range (D.nx (ii + 1)), D.b ii l * ∑ k ∈ range (D.nx (ii + 1)), D.BAbt ii r k * s.Qbar l k
      = ∑ c ∈ range (D.nx (ii + 1)), D.BAbt ii r c * ∑ l ∈ range (D.nx (ii + 1)), s.Qbar c l * D.b ii l := by
    simp only [mul_sum]
    rw [sum_comm]
    refine sum_congr rfl fun c hc => sum_congr rfl fun l hl => ?_
    rw [hQ l (mem_range.1 hl) c (mem_range.1 hc)]; ring
  rw [stage_orig_row E D ii s r hr, h3, h4, h5, e1, e2]
  linear_combination h1 - h2

theorem terminal_row (D : Data K) (s : Mem K) (z : Nat → K) (r : Nat) (hr : r < D.nux D.N) :
    (∑ c ∈ range (D.nux D.N), lowerSym ((terminal D s).orig D.N) r c * z c)
    = (∑ c ∈ range (D.nux D.N), lowerSym ((terminal D s).RSQ D.N) r c * z c)
      + if D.nu D.N ≤ r then ∑ l ∈ range (D.nx D.N),
          (terminal D s).Qbar (r - D.nu D.N) l * z (D.nu D.N + l) else 0 := by
  have hn : D.nux D.N = D.nu D.N + D.nx D.N := rfl
  rw [hn, sum_range_add, sum_range_add, add_assoc]
  congr 1
  · refine sum_congr rfl fun c hc => ?_
    have := mem_range.1 hc
    rw [terminal_block D s r c (Or.inr this) hr (by omega)]
  · by_cases h : D.nu D.N ≤ r
    · rw [if_pos h, ← sum_add_distrib]
      refine sum_congr rfl fun c hc => ?_
      rw [terminal_Qbar D s (r - D.nu D.N) c (by omega) (mem_range.1 hc), Nat.add_sub_cancel' h]
      ring
    · rw [if_neg h, add_zero]
      refine sum_congr rfl fun c hc => ?_
      have := mem_range.1 hc
      rw [terminal_block D s r _ (Or.inl (by omega)) hr (by omega)]

/-- contribution of the inequality multipliers to a row of the stationarity conditions -/
def ineqRow (q : Qp K) (lam : Nat → Nat → K) (i r : Nat) : K :=
  (∑ j ∈ range (q.st i).nb, if (q.st i).idxb j = r then
    - lam i j + lam i ((q.st i).nb + (q.st i).ng + j) else 0) +
  ∑ j ∈ range (q.st i).ng, (q.st i).DCt r j *
    (- lam i ((q.st i).nb + j) + lam i ((q.st i).nb + (q.st i).ng + ((q.st i).nb + j)))

theorem lag_eq (q : Qp K) (hw : WF q) (H : Nat → Nat → Nat → K) (g : Nat → Nat → K) (w : Sol K) (i r : Nat) :
    lagUx (withHg q H g) w i r
      = (∑ c ∈ range (q.nu i + q.nx i), lowerSym (H i) r c * w.ux i c) + g i r + ineqRow q w.lam i r
        + (if i < q.N then ∑ c ∈ range (q.nx (i + 1)), (q.st i).BAbt r c * w.pi i c else 0)
        - (if 0 < i ∧ q.nu i ≤ r then w.pi (i - 1) (r - q.nu i) else 0) := by
  have h1 : ∑ j ∈ range (q.st i).nb, (if (q.st i).idxb j = r then
      w.lam i j - w.lam i ((q.st i).nb + (q.st i).ng + j) else 0)
      = - ∑ j ∈ range (q.st i).nb, if (q.st i).idxb j = r then
        - w.lam i j + w.lam i ((q.st i).nb + (q.st i).ng + j) else 0 := by
    rw [← sum_neg_distrib]
    exact sum_congr rfl fun j _ => by split <;> ring
  have h2 : ∑ j ∈ range (q.st i).ng, (q.st i).DCt r j *
      (w.lam i ((q.st i).nb + j) - w.lam i ((q.st i).nb + (q.st i).ng + ((q.st i).nb + j)))
      = - ∑ j ∈ range (q.st i).ng, (q.st i).DCt r j *
        (- w.lam i ((q.st i).nb + j) + w.lam i ((q.st i).nb + (q.st i).ng + ((q.st i).nb + j))) := by
    rw [← sum_neg_distrib]
    exact sum_congr rfl fun j _ => by ring
  have h0 : lagUx (withHg q H g) w i r
      = (∑ c ∈ range (q.st i).nux, lowerSym (H i) r c * w.ux i c) + g i r
        + (if i < q.N then ∑ c ∈ range (q.nx (i + 1)), (q.st i).BAbt r c * w.pi i c else 0)
        - (if 0 < i ∧ q.nu i ≤ r then w.pi (i - 1) (r - q.nu i) else 0)
        - (∑ j ∈ range (q.st i).nb, (if (q.st i).idxb j = r then
            w.lam i j - w.lam i ((q.st i).nb + (q.st i).ng + j) else 0))
        - ∑ j ∈ range (q.st i).ng, (q.st i).DCt r j *
            (w.lam i ((q.st i).nb + j) - w.lam i ((q.st i).nb + (q.st i).ng + ((q.st i).nb + j))) := rfl
  rw [h0, h1, h2, hw.nux i]
  unfold ineqRow
  ring

theorem stageGrad_eq (q : Qp K) (delta : K) (s : Mem K) (ux lam : Nat → Nat → K) (k r : Nat) :
    stageGrad (dataOf q delta) (conOf q) s ux lam k r
      = (∑ c ∈ range (q.nu k + q.nx k), lowerSym (s.orig k) r c * ux k c)
        + s.orig k (q.nu k + q.nx k) r + ineqRow q lam k r := by
  have h0 : stageGrad (dataOf q delta) (conOf q) s ux lam k r
      = s.orig k (q.nu k + q.nx k) r + (∑ j ∈ range (q.st k).nb, if (q.st k).idxb j = r then
          - lam k j + lam k ((q.st k).nb + (q.st k).ng + j) else 0) +
        (∑ c ∈ range (q.nu k + q.nx k), lowerSym (s.orig k) r c * ux k c) +
        ∑ j ∈ range (q.st k).ng, (q.st k).DCt r j *
          (- lam k ((q.st k).nb + j) + lam k ((q.st k).nb + (q.st k).ng + ((q.st k).nb + j))) := rfl
  rw [h0]
  unfold ineqRow
  ring

section Recover
variable (E : Ext K) (q : Qp K) (delta : K) (s : Mem K) (w : Sol K)

/-- every row of the original stationarity conditions, in terms of the convexified ones -/
theorem row_key (hw : WF q) (hx : ∀ i < q.N, q.nx (i + 1) ≤ q.nx i)
    (hdyn : Traj (dataOf q delta) w.ux) (i : Nat) (hi : i ≤ q.N) (r : Nat) (hr : r < q.nu i + q.nx i)
    (hs : lagUx (withHg q (regularize E (dataOf q delta) s).RSQ
      (regularize E (dataOf q delta) s).rq) w i r = 0) :
    let D := dataOf q delta
    let R := regularize E D s
    (∑ c ∈ range (q.nu i + q.nx i), lowerSym (R.orig i) r c * w.ux i c)
        + R.orig i (q.nu i + q.nx i) r + ineqRow q w.lam i r
        + (if i < q.N then ∑ c ∈ range (q.nx (i + 1)), (q.st i).BAbt r c *
            (w.pi i c + ∑ l ∈ range (q.nx (i + 1)),
              (run E D s (q.N - (i + 1))).Qbar c l * w.ux (i + 1) (q.nu (i + 1) + l)) else 0)
      = (if 0 < i ∧ q.nu i ≤ r then w.pi (i - 1) (r - q.nu i) else 0)
        + if q.nu i ≤ r then ∑ l ∈ range (q.nx i),
            (run E D s (q.N - i)).Qbar (r - q.nu i) l * w.ux i (q.nu i + l) else 0 := by
  intro D R
  have hR : R = run E D s q.N := regularize_run E D s
  rw [lag_eq q hw] at hs
  rcases Nat.lt_or_ge i q.N with h | h
  · obtain ⟨a1, a2, a3, _⟩ := run_done E D s i h q.N le_rfl (by
      have : D.N = q.N := rfl
      omega)
    have hQ : SymOn (D.nx (i + 1)) (run E D s (q.N - (i + 1))).Qbar := by
      have := run_Qbar_sym E D s (q.N - (i + 1))
      have e : D.N - (q.N - (i + 1)) = i + 1 := by simp only [D, dataOf]; omega
      rwa [e] at this
    have hk := stage_row E D i (run E D s (q.N - (i + 1))) (hx i h) hQ (w.ux i)
      (fun c => w.ux (i + 1) (q.nu (i + 1) + c)) (fun c hc => hdyn i h c hc) r hr
    have hst : stage E D i (run E D s (q.N - (i + 1))) = run E D s (q.N - i) := by
      have e : q.N - i = (q.N - (i + 1)) + 1 := by omega
      rw [e, run]
      congr 1
      simp only [D, dataOf]; omega
    have b1 : R.orig i = (stage E D i (run E D s (q.N - (i + 1)))).orig i := by rw [hR]; exact a3
    have b2 : R.RSQ i = (stage E D i (run E D s (q.N - (i + 1)))).RSQ i := by rw [hR]; exact a1
    have b3 : R.rq i = (stage E D i (run E D s (q.N - (i + 1)))).rq i := by rw [hR]; exact a2
    have hs' : (∑ c ∈ range (q.nu i + q.nx i), lowerSym (R.RSQ i) r c * w.ux i c) + R.rq i r
        + ineqRow q w.lam i r
        + (if i < q.N then ∑ c ∈ range (q.nx (i + 1)), (q.st i).BAbt r c * w.pi i c else 0)
        - (if 0 < i ∧ q.nu i ≤ r then w.pi (i - 1) (r - q.nu i) else 0) = 0 := hs
    rw [if_pos h, b2, b3] at hs'
    rw [if_pos h, b1, ← hst]
    have hsplit : ∑ c ∈ range (q.nx (i + 1)), (q.st i).BAbt r c *
        (w.pi i c + ∑ l ∈ range (q.nx (i + 1)),
          (run E D s (q.N - (i + 1))).Qbar c l * w.ux (i + 1) (q.nu (i + 1) + l))
        = (∑ c ∈ range (q.nx (i + 1)), (q.st i).BAbt r c * w.pi i c)
          + ∑ c ∈ range (q.nx (i + 1)), (q.st i).BAbt r c * ∑ l ∈ range (q.nx (i + 1)),
          (run E D s (q.N - (i + 1))).Qbar c l * w.ux (i + 1) (q.nu (i + 1) + l) := by
      rw [← sum_add_distrib]
      exact sum_congr rfl fun c _ => by ring
    rw [hsplit]
    have hk' : (∑ c ∈ range (q.nu i + q.nx i),
          lowerSym ((stage E D i (run E D s (q.N - (i + 1)))).orig i) r c * w.ux i c)
        + (stage E D i (run E D s (q.N - (i + 1)))).orig i (q.nu i + q.nx i) r
        + ∑ c ∈ range (q.nx (i + 1)), (q.st i).BAbt r c * ∑ l ∈ range (q.nx (i + 1)),
          (run E D s (q.N - (i + 1))).Qbar c l * w.ux (i + 1) (q.nu (i + 1) + l)
        = (∑ c ∈ range (q.nu i + q.nx i),
          lowerSym ((stage E D i (run E D s (q.N - (i + 1)))).RSQ i) r c * w.ux i c)
        + (stage E D i (run E D s (q.N - (i + 1)))).rq i r
        + if q.nu i ≤ r then ∑ l ∈ range (q.nx i),
          (stage E D i (run E D s (q.N - (i + 1)))).Qbar (r - q.nu i) l * w.ux i (q.nu i + l) else 0 := hk
    linear_combination hk' + hs'
  · obtain rfl : i = q.N := le_antisymm hi h
    obtain ⟨a1, a2, a3⟩ := run_terminal E D s q.N le_rfl
    have b1 : R.orig q.N = (terminal D s).orig q.N := by rw [hR]; exact a3
    have b2 : R.RSQ q.N = (terminal D s).RSQ q.N := by rw [hR]; exact a1
    have b3 : R.rq q.N = s.rq q.N := by rw [hR]; exact a2
    have hk : (∑ c ∈ range (q.nu q.N + q.nx q.N), lowerSym ((terminal D s).orig q.N) r c * w.ux q.N c)
        = (∑ c ∈ range (q.nu q.N + q.nx q.N), lowerSym ((terminal D s).RSQ q.N) r c * w.ux q.N c)
        + if q.nu q.N ≤ r then ∑ l ∈ range (q.nx q.N),
          (terminal D s).Qbar (r - q.nu q.N) l * w.ux q.N (q.nu q.N + l) else 0 :=
      terminal_row D s (w.ux q.N) r hr
    have hg : (terminal D s).orig q.N (q.nu q.N + q.nx q.N) r = s.rq q.N r := terminal_orig_row D s r hr
    have hs' : (∑ c ∈ range (q.nu q.N + q.nx q.N), lowerSym (R.RSQ q.N) r c * w.ux q.N c) + R.rq q.N r
        + ineqRow q w.lam q.N r
        + (if q.N < q.N then ∑ c ∈ range (q.nx (q.N + 1)), (q.st q.N).BAbt r c * w.pi q.N c else 0)
        - (if 0 < q.N ∧ q.nu q.N ≤ r then w.pi (q.N - 1) (r - q.nu q.N) else 0) = 0 := hs
    rw [if_neg (lt_irrefl _), b2, b3] at hs'
    rw [if_neg (lt_irrefl _), b1, hg, Nat.sub_self]
    have hrun : run E D s 0 = terminal D s := rfl
    rw [hrun]
    linear_combination hk + hs'

theorem recover_pi (hw : WF q) (hx : ∀ i < q.N, q.nx (i + 1) ≤ q.nx i)
    (hdyn : Traj (dataOf q delta) w.ux)
    (hs : ∀ i ≤ q.N, ∀ r < q.nu i + q.nx i, lagUx (withHg q (regularize E (dataOf q delta) s).RSQ
      (regularize E (dataOf q delta) s).rq) w i r = 0) (t : Nat) (ht : t < q.N) :
    ∀ c < q.nx (q.N - t), recoverPi (dataOf q delta) (conOf q) (regularize E (dataOf q delta) s)
        w.ux w.lam t c
      = w.pi (q.N - t - 1) c + ∑ l ∈ range (q.nx (q.N - t)),
          (run E (dataOf q delta) s t).Qbar c l * w.ux (q.N - t) (q.nu (q.N - t) + l) := by
  induction t with
  | zero =>
    intro c hc
    rw [Nat.sub_zero] at hc ⊢
    have hk := row_key E q delta s w hw hx hdyn q.N le_rfl (q.nu q.N + c) (by omega)
      (hs q.N le_rfl _ (by omega))
    simp only [lt_irrefl, if_false, Nat.sub_self, Nat.le_add_right, and_true, if_true, add_zero,
      Nat.add_sub_cancel_left, if_pos ht] at hk
    have : recoverPi (dataOf q delta) (conOf q) (regularize E (dataOf q delta) s) w.ux w.lam 0 c
        = stageGrad (dataOf q delta) (conOf q) (regularize E (dataOf q delta) s) w.ux w.lam q.N
          (q.nu q.N + c) := by
      rw [recoverPi]; exact if_pos hc
    rw [this, stageGrad_eq]
    exact hk
  | succ t ih =>
    intro c hc
    obtain ⟨k, hk⟩ : ∃ k, k = q.N - (t + 1) := ⟨_, rfl⟩
    have hk0 : 0 < k := by omega
    have hk1 : q.N - t = k + 1 := by omega
    have ih' := ih (by omega)
    rw [hk1] at ih'
    rw [← hk] at hc ⊢
    have hrow := row_key E q delta s w hw hx hdyn k (by omega) (q.nu k + c) (by omega)
      (hs k (by omega) _ (by omega))
    have hkN : k < q.N := by omega
    have e1 : q.N - (k + 1) = t := by omega
    have e2 : q.N - k = t + 1 := by omega
    simp only [hkN, if_true, Nat.le_add_right, and_true, hk0, Nat.add_sub_cancel_left, e1, e2] at hrow
    have hrec : recoverPi (dataOf q delta) (conOf q) (regularize E (dataOf q delta) s) w.ux w.lam (t + 1) c
        = stageGrad (dataOf q delta) (conOf q) (regularize E (dataOf q delta) s) w.ux w.lam k
          (q.nu k + c) + ∑ c' ∈ range (q.nx (k + 1)), (q.st k).BAbt (q.nu k + c) c' *
            recoverPi (dataOf q delta) (conOf q) (regularize E (dataOf q delta) s) w.ux w.lam t c' := by
      subst hk
      rw [recoverPi]; exact if_pos hc
    rw [hrec, stageGrad_eq, ← hrow]
    congr 1
    exact sum_congr rfl fun c' hc' => by rw [ih' c' (mem_range.1 hc'), Nat.add_sub_cancel]

/-- **C55**: let `w` satisfy the dynamics and the stationarity conditions of the convexified QP.  With
the recovered multipliers of the dynamics the stationarity conditions of the original QP (Hessians and
gradients of the backup) hold in every row except the states of stage 0, where the residual is `Q·x₀`
for a symmetric matrix `Q` that depends on the QP data only. -/
theorem C55_stationarity (hw : WF q) (hx : ∀ i < q.N, q.nx (i + 1) ≤ q.nx i) :
    let R := regularize E (dataOf q delta) s
    ∃ Q, SymOn (q.nx 0) Q ∧ ∀ w, Traj (dataOf q delta) w.ux →
      (∀ i ≤ q.N, ∀ r < q.nu i + q.nx i, lagUx (withHg q R.RSQ R.rq) w i r = 0) →
      ∀ i ≤ q.N, ∀ r < q.nu i + q.nx i,
        lagUx (withHg q R.orig (fun i => R.orig i (q.nu i + q.nx i))) (recovered q delta R w) i r
          = if i = 0 ∧ q.nu 0 ≤ r then ∑ l ∈ range (q.nx 0), Q (r - q.nu 0) l * w.ux 0 (q.nu 0 + l)
            else 0 := by
  intro R
  refine ⟨(run E (dataOf q delta) s q.N).Qbar, ?_, fun w hdyn hs i hi r hr => ?_⟩
  · have := run_Qbar_sym E (dataOf q delta) s q.N
    have e : (dataOf q delta).N - q.N = 0 := Nat.sub_self _
    rwa [e] at this
  have hrow := row_key E q delta s w hw hx hdyn i hi r hr (hs i hi r hr)
  have hpi : i < q.N → ∀ c < q.nx (i + 1), (recovered q delta R w).pi i c
      = w.pi i c + ∑ l ∈ range (q.nx (i + 1)), (run E (dataOf q delta) s (q.N - (i + 1))).Qbar c l
        * w.ux (i + 1) (q.nu (i + 1) + l) := by
    intro h c hc
    have e : q.N - (q.N - (i + 1)) = i + 1 := by omega
    have := recover_pi E q delta s w hw hx hdyn hs (q.N - (i + 1)) (by omega)
    rw [e, Nat.add_sub_cancel] at this
    have e2 : q.N - 1 - i = q.N - (i + 1) := by omega
    simp only [recovered, e2]
    exact this c hc
  have hpi' : 0 < i → ∀ c < q.nx i, (recovered q delta R w).pi (i - 1) c
      = w.pi (i - 1) c + ∑ l ∈ range (q.nx i), (run E (dataOf q delta) s (q.N - i)).Qbar c l
        * w.ux i (q.nu i + l) := by
    intro h c hc
    have e : q.N - (q.N - i) = i := by omega
    have := recover_pi E q delta s w hw hx hdyn hs (q.N - i) (by omega)
    rw [e] at this
    have e2 : q.N - 1 - (i - 1) = q.N - i := by omega
    simp only [recovered, e2]
    exact this c hc
  rw [lag_eq q hw]
  have hdynrow : (if i < q.N then ∑ c ∈ range (q.nx (i + 1)), (q.st i).BAbt r c *
        (recovered q delta R w).pi i c else 0)
      = if i < q.N then ∑ c ∈ range (q.nx (i + 1)), (q.st i).BAbt r c *
            (w.pi i c + ∑ l ∈ range (q.nx (i + 1)),
              (run E (dataOf q delta) s (q.N - (i + 1))).Qbar c l * w.ux (i + 1) (q.nu (i + 1) + l)) else 0 := by
    by_cases h : i < q.N
    · rw [if_pos h, if_pos h]
      exact sum_congr rfl fun c hc => by rw [hpi h c (mem_range.1 hc)]
    · rw [if_neg h, if_neg h]
  have hux : (recovered q delta R w).ux = w.ux := rfl
  have hlam : (recovered q delta R w).lam = w.lam := rfl
  rw [hdynrow, hux, hlam]
  simp only at hrow
  rw [hrow]
  rcases Nat.eq_zero_or_pos i with rfl | h0
  · simp only [lt_irrefl, false_and, if_false, true_and, Nat.sub_zero]
    ring
  · have hi0 : i ≠ 0 := by omega
    by_cases hr' : q.nu i ≤ r
    · simp only [h0, hr', hi0, and_self, if_true, false_and, if_false]
      rw [hpi' h0 (r - q.nu i) (by omega)]
      ring
    · simp only [hr', hi0, and_false, if_false, false_and]
      ring

end Recover

theorem stage_rq_tail (E : Ext K) (D : Data K) (ii : Nat) (s : Mem K) (j : Nat) (hj : D.nux ii ≤ j) :
    (stage E D ii s).rq ii j = s.rq ii j := by
  simp only [stage, Function.update_self]
  rw [if_neg (by omega)]

/-- the slack gradients are not touched -/
theorem regularize_rq_tail (E : Ext K) (D : Data K) (s : Mem K) (i : Nat) (hi : i ≤ D.N) (j : Nat)
    (hj : D.nux i ≤ j) : (regularize E D s).rq i j = s.rq i j := by
  rw [regularize_run]
  rcases Nat.lt_or_ge i D.N with h | h
  · obtain ⟨_, a2, _⟩ := run_done E D s i h D.N le_rfl (by omega)
    rw [a2, stage_rq_tail E D i _ j hj, (run_keep E D s (D.N - (i + 1)) i (by omega)).2]
  · obtain rfl : i = D.N := le_antisymm hi h
    rw [(run_terminal E D s D.N le_rfl).2.1]

/-- **C55** (KKT points): if no stage had to be projected and the initial state does not move, a KKT
point of the convexified QP together with the recovered multipliers is a KKT point of the QP that was
passed in. -/
theorem C55_kkt_partial (E : Ext K) (q : Qp K) (delta : K) (s : Mem K) (hw : WF q)
    (hx : ∀ i < q.N, q.nx (i + 1) ≤ q.nx i)
    (hreg : ∀ i < q.N, (regularize E (dataOf q delta) s).reg i = false) (w : Sol K)
    (hk : Kkt (withHg q (regularize E (dataOf q delta) s).RSQ (regularize E (dataOf q delta) s).rq) w)
    (h0 : ∀ c < q.nx 0, w.ux 0 (q.nu 0 + c) = 0) :
    Kkt (withHg q s.RSQ s.rq) (recovered q delta (regularize E (dataOf q delta) s) w) := by
  have hdyn : Traj (dataOf q delta) w.ux := by
    intro i hi c hc
    have := hk.feas.dyn i hi c hc
    simp only [withHg, hw.nux i] at this
    exact this.symm
  obtain ⟨Q, _, hst⟩ := C55_stationarity E q delta s hw hx
  have hst := hst w hdyn (fun i hi r hr => hk.statUx i hi r (by
    have := hw.nux i
    simp only [withHg]; omega))
  have hback : ∀ i ≤ q.N, ∀ r < q.nu i + q.nx i,
      lagUx (withHg q s.RSQ s.rq) (recovered q delta (regularize E (dataOf q delta) s) w) i r
      = lagUx (withHg q (regularize E (dataOf q delta) s).orig
          (fun i => (regularize E (dataOf q delta) s).orig i (q.nu i + q.nx i)))
          (recovered q delta (regularize E (dataOf q delta) s) w) i r := by
    intro i hi r hr
    obtain ⟨b1, b2⟩ := C34_backup_is_input E (dataOf q delta) s i hi (hreg i)
    rw [lag_eq q hw, lag_eq q hw]
    have e1 : s.rq i r = (regularize E (dataOf q delta) s).orig i (q.nu i + q.nx i) r := (b2 r hr).symm
    have e2 : ∀ c < q.nu i + q.nx i, lowerSym (s.RSQ i) r c
        = lowerSym ((regularize E (dataOf q delta) s).orig i) r c := fun c hc =>
      (lowerSym_congr (q.nu i + q.nx i) _ _ (fun a ha b hb => (b1 a ha b (by
        simp only [dataOf, Data.nux]; omega)).symm)) r hr c hc
    rw [e1]
    congr 4
    exact sum_congr rfl fun c hc => by rw [e2 c (mem_range.1 hc)]
  have htail : ∀ i ≤ q.N, ∀ k, (regularize E (dataOf q delta) s).rq i ((q.st i).nux + k)
      = s.rq i ((q.st i).nux + k) := by
    intro i hi k
    refine regularize_rq_tail E (dataOf q delta) s i hi _ ?_
    rw [hw.nux i]
    simp only [dataOf, Data.nux]; omega
  refine ⟨⟨hk.feas.dyn, hk.feas.low, hk.feas.upp, hk.feas.slk⟩, fun i hi r hr => ?_, fun i hi k hk' => ?_,
    fun i hi k hk' => ?_, hk.low, hk.upp, hk.slk⟩
  · have hr' : r < q.nu i + q.nx i := by
      have := hw.nux i
      simp only [withHg] at hr; omega
    rw [hback i hi r hr', hst i hi r hr']
    split
    · exact sum_eq_zero fun l hl => by rw [h0 l (mem_range.1 hl), mul_zero]
    · rfl
  · have h := hk.statSl i hi k hk'
    simp only [lagSl, withHg, htail i hi] at h
    exact h
  · have h := hk.statSu i hi k hk'
    simp only [lagSu, withHg, htail i hi] at h
    exact h

/-- **C55** (finding): in the split used by the real-time iteration (`regularize_lhs` in the
preparation, `regularize_rhs` in the feedback phase) the gradient that is put back afterwards — and
from which the multipliers are recovered — is, for every stage before the last and whatever the
current gradient is, the row that was stored in the Hessian block before the preparation phase. -/
theorem C55_split_restores_stale_gradient (E : Ext K) (D : Data K) (s : Mem K) (rq' : Nat → Nat → K)
    (i : Nat) (hi : i < D.N) (j : Nat) (hj : j < D.nux i) :
    let L := regularizeLhs E D s
    let R := regularizeRhs E D { L with rq := rq' }
    restoredRq D R i j = s.RSQ i (D.nux i) j := by
  intro L R
  have h1 : restoredRq D R i j = L.orig i (D.nux i) j := by
    simp only [restoredRq, R, regularizeRhs]
    rw [if_pos ⟨by omega, hj⟩, if_pos ⟨hi, trivial⟩]
  rw [h1]
  have h2 : L.orig i (D.nux i) j = (regularize E D { s with rq := lastRow D s }).orig i (D.nux i) j := rfl
  rw [h2, regularize_run]
  obtain ⟨_, _, a3, _⟩ := run_done E D { s with rq := lastRow D s } i hi D.N le_rfl (by omega)
  rw [a3, stage_orig_row E D i _ j hj,
    (run_keep E D { s with rq := lastRow D s } (D.N - (i + 1)) i (by omega)).2]
  rfl

/-! ## non-vacuity -/

/-- over the reals there are external routines that meet the hypotheses of `C34_convex_partial` -/
theorem exact_ext_exists : ∃ E : Ext ℝ, EigAll E.eig ∧ FacOk E := by
  obtain ⟨eig, hE⟩ := Reg.exact_eig_all
  refine ⟨⟨eig, fun n A i k => (eig n A).1 i k * Real.sqrt ((eig n A).2 k),
    fun x u L S i k => (∑ j ∈ range u, S i j * L j k) / ∑ j ∈ range u, L j k ^ 2⟩, hE, ?_⟩
  rintro u x A S ⟨c, hc, hge⟩
  have hok := hE u A
  have hd : ∀ k < u, 0 < (eig u A).2 k := fun k hk =>
    lt_of_lt_of_le hc (Reg.eig_ge u _ _ _ hok c hge k hk)
  have hsq : ∀ k < u, Real.sqrt ((eig u A).2 k) * Real.sqrt ((eig u A).2 k) = (eig u A).2 k :=
    fun k hk => Real.mul_self_sqrt (hd k hk).le
  refine ⟨fun i k => (eig u A).1 i k * Real.sqrt ((eig u A).2 k), fun i hi j hj => ?_, fun i hi j hj => ?_⟩
  · rw [hok.dec i hi j hj]
    refine sum_congr rfl fun k hk => ?_
    linear_combination (-(eig u A).1 i k * (eig u A).1 j k) * hsq k (mem_range.1 hk)
  · have hn : ∀ k < u, ∑ j ∈ range u, ((eig u A).1 j k * Real.sqrt ((eig u A).2 k)) ^ 2
        = (eig u A).2 k := by
      intro k hk
      have h1 := hok.cols k hk k hk
      rw [if_pos rfl] at h1
      have : ∀ j ∈ range u, ((eig u A).1 j k * Real.sqrt ((eig u A).2 k)) ^ 2
          = ((eig u A).1 j k * (eig u A).1 j k) * (eig u A).2 k := fun j _ => by
        linear_combination ((eig u A).1 j k * (eig u A).1 j k) * hsq k hk
      rw [sum_congr rfl this, ← sum_mul, h1, one_mul]
    have h2 : ∀ k ∈ range u, (∑ j' ∈ range u, S i j' * ((eig u A).1 j' k * Real.sqrt ((eig u A).2 k)))
          / (∑ j ∈ range u, ((eig u A).1 j k * Real.sqrt ((eig u A).2 k)) ^ 2)
          * ((eig u A).1 j k * Real.sqrt ((eig u A).2 k))
        = ∑ j' ∈ range u, S i j' * ((eig u A).1 j' k * (eig u A).1 j k) := by
      intro k hk
      have hk' := mem_range.1 hk
      have h0 := (hd k hk').ne'
      rw [hn k hk', div_mul_eq_mul_div, div_eq_iff h0, sum_mul, sum_mul]
      refine sum_congr rfl fun j' _ => ?_
      linear_combination (S i j' * (eig u A).1 j' k * (eig u A).1 j k) * hsq k hk'
    rw [sum_congr rfl h2, sum_comm]
    have h3 : ∀ j' ∈ range u, ∑ k ∈ range u, S i j' * ((eig u A).1 j' k * (eig u A).1 j k)
        = if j' = j then S i j' else 0 := by
      intro j' hj'
      rw [← mul_sum, hok.rows j' (mem_range.1 hj') j hj]
      split <;> simp
    rw [sum_congr rfl h3, sum_ite_eq' , if_pos (mem_range.2 hj)]

/-- one control, one state, horizon 1; the terminal cost is concave, the stage cost strongly convex -/
def exD : Data ℚ where
  N := 1
  nx := fun _ => 1
  nu := fun i => if i = 0 then 1 else 0
  BAbt := fun _ _ _ => 1
  b := fun _ _ => 2
  delta := 1 / 10
def exM : Mem ℚ where
  RSQ := fun i r c => if i = 0 then (if r = c ∧ r < 2 then 4 else 0) else -1
  rq := fun _ _ => 3
  orig := fun _ _ _ => 0
  BAQ := fun _ _ => 0
  Qbar := fun _ _ => 0
  reg := fun _ => false
/-- exact 1×1 linear algebra up to the square root, which is not needed: `potrf` returns the pivot -/
def exE : Ext ℚ where
  eig := fun _ A => (fun i j => if i = j then 1 else 0, fun k => A k k)
  potrf := fun _ A => A
  trsm := fun _ _ L S => fun i k => S i k / L k k

/-- non-vacuity for C34 and C55: no stage is projected, the Hessian, the gradient and the terminal
block are really changed, and the multiplier is recovered from the backup -/
example : (regularize exE exD exM).reg 0 = false ∧
    (regularize exE exD exM).RSQ 0 0 0 = 29 / 10 ∧ (regularize exE exD exM).rq 0 0 = 8 / 10 ∧
    (regularize exE exD exM).RSQ 1 0 0 = 1 / 10 ∧ (regularize exE exD exM).orig 1 0 0 = -1 := by
  decide +kernel
example : ∀ i < exD.N, exD.nx (i + 1) ≤ exD.nx i := by decide
example : Traj exD (fun i r => if i = 0 then (if r = 0 then 5 else 0) else 7) := by
  intro i hi c hc
  have : i = 0 := by have : exD.N = 1 := rfl; omega
  have : c = 0 := by have : exD.nx (i + 1) = 1 := rfl; omega
  subst_vars
  decide +kernel

/-- the state dimension grows from 0 to 1 -/
def growD : Data ℚ := { exD with nx := fun i => if i = 0 then 0 else 1, b := fun _ _ => 0 }

/-- **C34** (counterexample): if the state dimension grows along the horizon, `BAQ` is only computed for
the columns of the smaller stage and the curvature that was moved out of the next stage is lost: two
trajectories from the same initial state whose original objective values differ by `3/2` differ by
`41/20` in the convexified problem, although no stage was projected. -/
theorem C34_growing_state_dimension :
    let R := regularize exE growD exM
    let z : Rat → Nat → Nat → ℚ := fun u _ _ => u
    (∀ u, Traj growD (z u)) ∧ R.reg 0 = false ∧
    objective growD exM.RSQ (fun _ _ => 0) (z 1) - objective growD exM.RSQ (fun _ _ => 0) (z 0) = 3 / 2 ∧
    objective growD R.RSQ (fun _ _ => 0) (z 1) - objective growD R.RSQ (fun _ _ => 0) (z 0) = 41 / 20 ∧
    (∀ c < 1, R.rq 0 c = exM.rq 0 c) := by
  intro R z
  refine ⟨fun u i hi c hc => ?_, by decide +kernel, by decide +kernel, by decide +kernel,
    by decide +kernel⟩
  have : i = 0 := by have : growD.N = 1 := rfl; omega
  subst this
  have e : growD.nux 0 = 1 := rfl
  rw [e, sum_range_one]
  simp [growD, exD, z]

end Acados.Conv
