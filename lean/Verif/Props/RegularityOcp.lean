import Verif.Props.Regularity
import Verif.Lemmas.RegularityOcp
import Verif.Props.CasadiNlp

/-!
C104 for problems built by `AcadosCasadiOcp`: the constraints the checks read are the hard
constraints of the optimal control problem.
-/

namespace Acados.Regularity

open CasadiNlp (Sym Ocp Proper build)

section
variable {K : Type*} [Field K] [LinearOrder K] [IsStrictOrderedRing K]

omit [IsStrictOrderedRing K] in
/-- **C104.** The constraints read for a stage are its hard constraints with the bounds of the
problem, their values and multipliers, each once and in the documented order. -/
theorem C104_ocp_rows (o : Ocp K) (n : CasadiNlp.Nlp K) (hb : build o = some n) (ho : Proper o)
    (v μ : Sym → K) (μg : CasadiNlp.Con → K) (D : CasadiNlp.Con → Sym → K) (tol : K)
    (k : ℕ) (hk : k ≤ o.N) :
    (ofNlp o n v μ μg D tol).cons k = ocpRows o n.v.w v μ (CasadiNlp.Con.eval o v) μg D k := by
  obtain ⟨rfl, hN, -, -⟩ := CasadiNlp.build_some hb
  exact cons_eq o hN ho v μ μg D tol k hk

/-- **C104.** Strict complementarity of an optimal control problem, without regard to soft
constraints. -/
theorem C104_ocp_strict_partial (o : Ocp K) (n : CasadiNlp.Nlp K) (hb : build o = some n)
    (ho : Proper o) (v μ : Sym → K) (μg : CasadiNlp.Con → K) (D : CasadiNlp.Con → Sym → K)
    (tol : K) (ht : 0 < tol) :
    (ofNlp o n v μ μg D tol).strict = some true ↔
      ∀ k ≤ o.N, ∀ c ∈ ocpRows o n.v.w v μ (CasadiNlp.Con.eval o v) μg D k,
        ¬ c.Violated tol ∧ c.Strict tol := by
  refine (C104_strict_partial (ofNlp o n v μ μg D tol) ht).1.trans ?_
  refine forall_congr' fun k => forall_congr' fun hk => ?_
  rw [C104_ocp_rows o n hb ho v μ μg D tol k hk]
  rfl

omit [IsStrictOrderedRing K] in
theorem licqExcept_congr (N : ℕ) (c c' : ℕ → List (Con K)) (tol : K) (skip : ℕ → ℕ → Prop)
    (h : ∀ k ≤ N, c k = c' k) (hl : LicqExcept N c tol skip) : LicqExcept N c' tol skip := by
  intro e l u hs hsum k hk
  rw [← h k hk]
  refine hl e l u (fun k i r hk hr => hs k i r hk (by rw [← h k hk]; exact hr)) (fun q => ?_) k hk
  rw [← hsum q]
  refine Finset.sum_congr rfl fun j hj => ?_
  rw [h j (Nat.lt_succ_iff.1 (Finset.mem_range.1 hj))]

omit [IsStrictOrderedRing K] in
/-- **C104.** Constraints of a stage do not depend on variables of earlier stages if their
derivatives do not: bounds are on variables of the stage. -/
theorem C104_ocp_staged (o : Ocp K) (n : CasadiNlp.Nlp K) (hb : build o = some n) (ho : Proper o)
    (v μ : Sym → K) (μg : CasadiNlp.Con → K) (D : CasadiNlp.Con → Sym → K) (tol : K)
    (hD : Forward D) :
    Staged o.N (ofNlp o n v μ μg D tol).cons (ofNlp o n v μ μg D tol).cols := by
  intro k hk c hc j hj q hq
  rw [C104_ocp_rows o n hb ho v μ μg D tol k hk] at hc
  obtain ⟨rfl, hN, -, -⟩ := CasadiNlp.build_some hb
  obtain ⟨s, hs, hst⟩ := cols_mem o ho v μ μg D tol j (by omega) q hq
  have hvar : ∀ (s' : Sym) (lo up : K), symStage s' = k →
      (varRow (CasadiNlp.vars o).w v μ s' lo up).grad q = 0 := by
    intro s' lo up hs'
    simp only [varRow, hs, Option.some.injEq]
    rw [if_neg]
    rintro rfl
    omega
  have hcon : ∀ (c' : CasadiNlp.Con) (lo up : K), conStage c' = k →
      (conRow (CasadiNlp.vars o).w (CasadiNlp.Con.eval o v) μg D c' lo up).grad q = 0 := by
    intro c' lo up hc'
    simp only [conRow, hs, Option.map_some, Option.getD_some]
    exact hD c' s (by omega)
  unfold ocpRows at hc
  simp only [List.mem_append] at hc
  rcases hc with (((hc | hc) | hc) | hc) | hc
  · obtain ⟨i, -, rfl⟩ := List.mem_map.1 hc
    exact hvar _ _ _ rfl
  · split at hc
    · rcases List.mem_append.1 hc with hc | hc
      · obtain ⟨i, -, rfl⟩ := List.mem_map.1 hc
        exact hvar _ _ _ rfl
      · obtain ⟨i, -, rfl⟩ := List.mem_map.1 hc
        exact hcon _ _ _ rfl
    · cases hc
  · split at hc
    · obtain ⟨i, -, rfl⟩ := List.mem_map.1 hc
      exact hcon _ _ _ rfl
    · obtain ⟨i, -, rfl⟩ := List.mem_map.1 hc
      exact hcon _ _ _ rfl
  · obtain ⟨i, -, rfl⟩ := List.mem_map.1 hc
    exact hcon _ _ _ rfl
  · obtain ⟨i, -, rfl⟩ := List.mem_map.1 hc
    exact hcon _ _ _ rfl

/-- **C104.** LICQ of an optimal control problem: if it is reported, no inequality is violated and
the gradients of all hard constraints, except equalities among the bounds on state and control of
the initial stage, are linearly independent. -/
theorem C104_ocp_licq_partial (o : Ocp K) (n : CasadiNlp.Nlp K) (hb : build o = some n)
    (ho : Proper o) (v μ : Sym → K) (μg : CasadiNlp.Con → K) (D : CasadiNlp.Con → Sym → K)
    (tol : K) (hD : Forward D) (h : (ofNlp o n v μ μg D tol).licq = some true) :
    (∀ k ≤ o.N, ∀ c ∈ ocpRows o n.v.w v μ (CasadiNlp.Con.eval o v) μg D k, ¬ c.Violated tol) ∧
    LicqExcept o.N (ocpRows o n.v.w v μ (CasadiNlp.Con.eval o v) μg D) tol
      (fun k i => k = 0 ∧ i < o.init.nbx + o.nbu) := by
  obtain ⟨h1, h2⟩ := C104_licq_partial _ (C104_ocp_staged o n hb ho v μ μg D tol hD) h
  refine ⟨fun k hk c hc => h1 k hk c ?_, licqExcept_congr _ _ _ _ _
    (fun k hk => C104_ocp_rows o n hb ho v μ μg D tol k hk) h2⟩
  rw [C104_ocp_rows o n hb ho v μ μg D tol k hk]
  exact hc

/-- **C104.** Equalities of a stage of an optimal control problem are divided into those among the
bounds on state and control of the stage, and others. -/
theorem C104_ocp_eq_bounds (o : Ocp K) (n : CasadiNlp.Nlp K) (hb : build o = some n)
    (ho : Proper o) (v μ : Sym → K) (μg : CasadiNlp.Con → K) (D : CasadiNlp.Con → Sym → K)
    (tol : K) (k : ℕ) (hk : k ≤ o.N) (ix : Idx) (hi : (ofNlp o n v μ μg D tol).indices k = some ix)
    (i : ℕ) :
    (i ∈ ix.eqBounds ↔ i < (o.at k).nbx + (if k < o.N then o.nbu else 0) ∧
      ∃ c, (ocpRows o n.v.w v μ (CasadiNlp.Con.eval o v) μg D k)[i]? = some c ∧ c.IsEq) ∧
    (i ∈ ix.eqG ↔ (o.at k).nbx + (if k < o.N then o.nbu else 0) ≤ i ∧
      ∃ c, (ocpRows o n.v.w v μ (CasadiNlp.Con.eval o v) μg D k)[i]? = some c ∧ c.IsEq) := by
  obtain ⟨-, h1, h2, -⟩ := (C104_indices (ofNlp o n v μ μg D tol) k).2 ix hi
  have hnb : (ofNlp o n v μ μg D tol).nb k = (o.at k).nbx + (if k < o.N then o.nbu else 0) := by
    obtain ⟨rfl, hN, -, -⟩ := CasadiNlp.build_some hb
    by_cases h0 : k = 0
    · simp [Nlp.nb, ofNlp, Ocp.at, h0, hN]
    · by_cases hlt : k < o.N <;> simp [Nlp.nb, ofNlp, Ocp.at, h0, hlt]
  rw [← C104_ocp_rows o n hb ho v μ μg D tol k hk, ← hnb]
  exact ⟨h1 i, h2 i⟩

end

/-! ### The example of C97 at the point zero: the hard nonlinear constraint is active -/

/-- Partial derivatives of the constraints of `CasadiNlp.exOcp`. -/
def exD : CasadiNlp.Con → Sym → ℚ
  | .dyn i _, .x i' _ => if i' = i + 1 then 1 else if i' = i then -1 else 0
  | .dyn i _, .u i' _ => if i' = i then -1 else 0
  | .lin i _, .x i' _ => if i' = i then 1 else 0
  | .lin i _, .u i' _ => if i' = i then 1 else 0
  | .h i _, .x i' _ => if i' = i then 2 else 0
  | .hl i _ _, .x i' _ => if i' = i then 1 else 0
  | .hl i _ _, .sl i' _ => if i' = i then 1 else 0
  | .hu i _ _, .x i' _ => if i' = i then 1 else 0
  | .hu i _ _, .su i' _ => if i' = i then -1 else 0
  | _, _ => 0

theorem exD_forward : Forward exD := by
  intro c s h
  cases c <;> cases s <;> simp only [symStage, conStage] at h <;> simp only [exD] <;>
    (try (split_ifs <;> first | rfl | omega))

/-- The data of the checks. -/
def exChk : Nlp ℚ :=
  ofNlp CasadiNlp.exOcp ⟨CasadiNlp.vars CasadiNlp.exOcp, CasadiNlp.cons CasadiNlp.exOcp⟩
    (fun _ => 0) (fun _ => 0) (fun c => match c with | .h _ _ => -1 | _ => 3) exD (1 / 10)

example : exChk.strict = some true := by decide +kernel

theorem exChk_licq : exChk.licq = some true := by
  refine (loop_true _ _).2 fun k hk => ?_
  have h2 : k = 0 ∨ k = 1 ∨ k = 2 := by
    have := List.mem_range.1 hk
    have hN : exChk.N = 2 := rfl
    omega
  rcases h2 with rfl | rfl | rfl
  · refine licqStage_true.2 ⟨⟨[0, 1, 3, 4], [], [2], [4], []⟩, by decide +kernel, ?_⟩
    change (jacMat (exChk.cons 0) [(false, 2), (true, 4)] [0, 1]).rank = 2
    refine rank_two _ _ _ _ fun a b h => ?_
    have h0 := h 0 (by decide)
    have h1 := h 1 (by decide)
    have e1 : entry (exChk.cons 0) (false, 2) 0 = -1 := by decide +kernel
    have e2 : entry (exChk.cons 0) (true, 4) 0 = -2 := by decide +kernel
    have e3 : entry (exChk.cons 0) (false, 2) 1 = -1 := by decide +kernel
    have e4 : entry (exChk.cons 0) (true, 4) 1 = 0 := by decide +kernel
    rw [e1, e2] at h0
    rw [e3, e4] at h1
    constructor <;> linarith
  · refine licqStage_true.2 ⟨⟨[0, 1, 3, 4], [], [2], [4], []⟩, by decide +kernel, ?_⟩
    change (jacMat (exChk.cons 1) [(false, 2), (true, 4)] [4, 5]).rank = 2
    refine rank_two _ _ _ _ fun a b h => ?_
    have h0 := h 4 (by decide)
    have h1 := h 5 (by decide)
    have e1 : entry (exChk.cons 1) (false, 2) 4 = -1 := by decide +kernel
    have e2 : entry (exChk.cons 1) (true, 4) 4 = -2 := by decide +kernel
    have e3 : entry (exChk.cons 1) (false, 2) 5 = -1 := by decide +kernel
    have e4 : entry (exChk.cons 1) (true, 4) 5 = 0 := by decide +kernel
    rw [e1, e2] at h0
    rw [e3, e4] at h1
    constructor <;> linarith
  · refine licqStage_true.2 ⟨⟨[0, 1], [], [], [1], []⟩, by decide +kernel, ?_⟩
    change (jacMat (exChk.cons 2) [(true, 1)] [8]).rank = 1
    refine rank_one _ _ _ fun a h => ?_
    have h0 := h 8 (by decide)
    have e1 : entry (exChk.cons 2) (true, 1) 8 = -2 := by decide +kernel
    rw [e1] at h0
    linarith

/-- The hypotheses of `C104_ocp_licq_partial` are met. -/
example : LicqExcept CasadiNlp.exOcp.N
    (ocpRows CasadiNlp.exOcp (CasadiNlp.vars CasadiNlp.exOcp).w (fun _ => 0) (fun _ => 0)
      (CasadiNlp.Con.eval CasadiNlp.exOcp (fun _ => 0))
      (fun c => match c with | .h _ _ => -1 | _ => 3) exD) (1 / 10)
    (fun k i => k = 0 ∧ i < CasadiNlp.exOcp.init.nbx + CasadiNlp.exOcp.nbu) :=
  (C104_ocp_licq_partial CasadiNlp.exOcp _ rfl CasadiNlp.exOcp_proper _ _ _ exD _ exD_forward
    exChk_licq).2

end Acados.Regularity
