import Verif.Lemmas.QpDump
import Mathlib.Algebra.BigOperators.Group.Finset.Basic
import Mathlib.Algebra.Order.BigOperators.Group.Finset
import Mathlib.Algebra.Order.Ring.Rat
/-!
# C95: a QP that was dumped is loaded as the same QP

A QP written by the C function `dump_last_qp_to_json` or returned by `get_last_qp` and loaded by `AcadosOcpQp.from_json` or `from_dict`
has the same horizon, dimensions and data, numbers rounded by printing (`C95_load_partial`), if all stages have states, all but the last
have controls, and, for the C function, `N` and `N + 1` have equally many digits.  In the other cases loading raises an exception
(`C95_digits_false`, `C95_nu_false`).  The buffer of the C function is large enough for every field (`C95_buffer`).
-/
namespace Acados.QpDump
variable {K : Type} [Field K] [LinearOrder K]

/-- the loaded QP has the horizon, dimensions and data of the given one, numbers rounded by `rnd`; `idxs` is not part of a loaded QP, which
has `idxs_rev` instead -/
def Same (rnd : K → K) (d : Dims) (v : Data K) (q : Qp K) : Prop :=
  q.N = d.N
  ∧ (∀ k ≤ d.N, (dimsOf q).nx k = d.nx k ∧ (dimsOf q).nu k = d.nu k ∧ (dimsOf q).nbx k = d.nbx k ∧ (dimsOf q).nbu k = d.nbu k
      ∧ (dimsOf q).ng k = d.ng k ∧ (dimsOf q).ns k = d.ns k ∧ (dimsOf q).ne k = d.ne k)
  ∧ ∀ f k, f ≠ .idxs → d.has f k → 0 < d.rows f k → 0 < d.cols f k → (q.get f k).rows = d.rows f k ∧ (q.get f k).cols = d.cols f k
      ∧ ∀ r < d.rows f k, ∀ c < d.cols f k, (q.get f k).e r c = if f.isInt then v f k r c else rnd (v f k r c)

/-- **C95 (partial: states at all stages, controls at all stages but the last, equalities only on bounds of states).** A dumped QP is loaded
as the same QP: always with the Python backend, with the C backend if `N` and `N + 1` have equally many digits. -/
theorem C95_load_partial (rnd : K → K) (d : Dims) (v : Data K) (hx : ∀ k ≤ d.N, 0 < d.nx k) (hu : ∀ k < d.N, 0 < d.nu k) (he : EqOnX d v) :
    (∃ q, load (dumpPy d v) = some q ∧ Same id d v q)
    ∧ ((str d.N).length = (str (d.N + 1)).length → ∃ q, load (dumpC rnd d v) = some q ∧ Same rnd d v q) := by
  have main : ∀ rnd : K → K, ∃ q, load (dump (str (d.N + 1)).length rnd d v) = some q ∧ Same rnd d v q := by
    intro rnd
    have V := fun f k h => vec_get rnd d v f k h
    have M := fun f k h => mat_get rnd d v f k h
    have nd : ∀ {f : F}, f.isDyn = false → ∀ {k}, k ≤ d.N → d.has f k := fun hf _ hk => ⟨hk, fun h => by rw [hf] at h; cases h⟩
    have dn : ∀ {f : F} {k}, k < d.N → d.has f k := fun hk => ⟨by omega, fun _ => hk⟩
    have Q1 : ∀ k ≤ d.N, ((loaded rnd d v).get .Q k).rows = d.nx k := fun k hk => (M .Q k rfl (nd rfl hk) (hx k hk) (hx k hk)).1
    have R1 : ∀ k ≤ d.N, ((loaded rnd d v).get .R k).rows = d.nu k := fun k hk => by
      by_cases h0 : d.nu k = 0
      · rw [mat_empty rnd d v .R k rfl (Or.inl h0), h0]
      · exact (M .R k rfl (nd rfl hk) (Nat.pos_of_ne_zero h0) (Nat.pos_of_ne_zero h0)).1
    have C1 : ∀ k ≤ d.N, ((loaded rnd d v).get .C k).rows = d.ng k := fun k hk => by
      by_cases h0 : d.ng k = 0
      · rw [mat_empty rnd d v .C k rfl (Or.inl h0), h0]
      · exact (M .C k rfl (nd rfl hk) (Nat.pos_of_ne_zero h0) (hx k hk)).1
    have D1 : ∀ k < d.N, ((loaded rnd d v).get .D k).rows = d.ng k := fun k hk => by
      by_cases h0 : d.ng k = 0
      · rw [mat_empty rnd d v .D k rfl (Or.inl h0), h0]
      · exact (M .D k rfl (dn hk) (Nat.pos_of_ne_zero h0) (hu k hk)).1
    have A1 : ∀ k < d.N, ((loaded rnd d v).get .A k).rows = d.nx (k + 1) := fun k hk => (M .A k rfl (dn hk) (hx (k + 1) hk) (hx k (by omega))).1
    have B1 : ∀ k < d.N, ((loaded rnd d v).get .B k).rows = d.nx (k + 1) := fun k hk => (M .B k rfl (dn hk) (hx (k + 1) hk) (hu k hk)).1
    have ok : (List.range (d.N + 1)).all (stageOk (loaded rnd d v)) = true := by
      rw [List.all_eq_true]
      intro k hk
      have hk : k ≤ d.N := by have := List.mem_range.1 hk; omega
      have v1 : ∀ f, f.isMat = false → f.isDyn = false → ((loaded rnd d v).get f k).rows = d.rows f k := fun f h1 h2 => (V f k h1 (nd h2 hk)).1
      unfold stageOk dimsOf
      dsimp only
      simp only [Bool.and_eq_true, Bool.or_eq_true, decide_eq_true_eq, beq_iff_eq, List.all_eq_true]
      rw [Q1 k hk, R1 k hk, C1 k hk, v1 .q rfl rfl, v1 .r rfl rfl, v1 .idxb rfl rfl, v1 .lbx rfl rfl, v1 .lbu rfl rfl, v1 .lg rfl rfl, v1 .lls rfl rfl,
        v1 .idxe rfl rfl, v1 .idxsRev rfl rfl, v1 .zl rfl rfl, v1 .zu rfl rfl, v1 .Zl rfl rfl, v1 .Zu rfl rfl, v1 .lbuM rfl rfl, v1 .ubuM rfl rfl,
        v1 .lbxM rfl rfl, v1 .ubxM rfl rfl, v1 .lgM rfl rfl, v1 .ugM rfl rfl, v1 .llsM rfl rfl, v1 .lusM rfl rfl]
      simp only [Dims.rows, true_and, and_true]
      have hN : (loaded rnd d v).N = d.N := rfl
      rw [hN]
      refine ⟨⟨⟨⟨⟨⟨?_, ?_⟩, ?_⟩, ?_⟩, ?_⟩, ?_⟩, ?_⟩
      · by_cases h0 : d.nu k = 0
        · exact Or.inl h0
        · have := M .S k rfl (nd rfl hk) (Nat.pos_of_ne_zero h0) (hx k hk)
          exact Or.inr ⟨this.1, this.2.1⟩
      · by_cases h : d.N ≤ k
        · exact Or.inl h
        · have h : k < d.N := by omega
          refine Or.inr ⟨⟨?_, ?_⟩, ?_⟩
          · rcases Nat.eq_zero_or_pos k with h0 | h0
            · exact Or.inl h0
            · refine Or.inr ?_
              rw [A1 (k - 1) (by omega), show k - 1 + 1 = k by omega]
          · rw [A1 k h, B1 k h]
          · rw [A1 k h]
            exact (V .b k rfl (dn h)).1
      · omega
      · by_cases h : d.N ≤ k
        · exact Or.inl h
        · exact Or.inr (D1 k (by omega))
      · by_cases h0 : d.ng k = 0
        · exact Or.inl h0
        · refine Or.inr ⟨(M .C k rfl (nd rfl hk) (Nat.pos_of_ne_zero h0) (hx k hk)).2.1, ?_⟩
          by_cases h : d.N ≤ k
          · exact Or.inl h
          · exact Or.inr (M .D k rfl (dn (by omega)) (Nat.pos_of_ne_zero h0) (hu k (by omega))).2.1
      · omega
      · by_cases h0 : d.ne k = 0
        · exact Or.inl h0
        · obtain ⟨e1, e2⟩ := he k hk
          refine Or.inr ⟨by omega, ?_⟩
          intro i hi
          have hi := List.mem_range.1 hi
          have := (V .idxe k rfl (nd rfl hk)).2.2 i hi
          rw [this]
          have e3 := e2 i hi
          rw [Nat.add_comm (d.nbx k)]
          exact e3
    refine ⟨loaded rnd d v, by rw [load_eq rnd d v hx, if_pos ok], rfl, fun k hk => ?_, fun f k _ hf hr hc => ?_⟩
    · exact ⟨Q1 k hk, R1 k hk, (V .lbx k rfl (nd rfl hk)).1, (V .lbu k rfl (nd rfl hk)).1, (V .lg k rfl (nd rfl hk)).1, (V .lls k rfl (nd rfl hk)).1, (V .idxe k rfl (nd rfl hk)).1⟩
    · by_cases hm : f.isMat = true
      · obtain ⟨a, b, c⟩ := M f k hm hf hr hc
        exact ⟨a, b, fun r h c' _ => c r h c'⟩
      · rw [Bool.not_eq_true] at hm
        obtain ⟨a, b, c⟩ := V f k hm hf
        have hcol : d.cols f k = 1 := by cases f <;> first | rfl | cases hm
        refine ⟨a, by rw [b, hcol], fun r h c' hc' => ?_⟩
        have : c' = 0 := by omega
        subst this
        exact c r h
  refine ⟨main id, fun h => ?_⟩
  unfold dumpC
  rw [h]
  exact main rnd

/-- **C95 is false: with the C backend a QP with `N + 1 = 10, 100, …` cannot be loaded.** The stages are written with as many digits as
`N` has, and read with as many as `N + 1` has. -/
theorem C95_digits_false (rnd : K → K) (d : Dims) (v : Data K) (hx : ∀ k ≤ d.N, 0 < d.nx k) (m : Nat) (hm : 0 < m) (hN : d.N + 1 = 10 ^ m) :
    load (dumpC rnd d v) = none := by
  apply load_digits _ rnd d v hx le_rfl
  have hp : 10 ≤ 10 ^ m := by
    calc 10 = 10 ^ 1 := rfl
      _ ≤ 10 ^ m := Nat.pow_le_pow_right (by decide) hm
  have h1 : (str d.N).length ≤ m := by
    unfold str
    rw [if_neg (by omega), List.length_reverse, List.length_map]
    exact (Nat.digits_length_le_iff (by decide) d.N).2 (by omega)
  have h2 : m < (str (d.N + 1)).length := by
    unfold str
    rw [if_neg (by omega), List.length_reverse, List.length_map]
    exact (Nat.lt_digits_length_iff (by decide) (d.N + 1)).2 (by omega)
  omega

/-- **C95 is false: a QP with a stage without controls, other than the last one, cannot be loaded.** -/
theorem C95_nu_false (rnd : K → K) (d : Dims) (v : Data K) (hx : ∀ k ≤ d.N, 0 < d.nx k) (k : Nat) (hk : k < d.N) (hu : d.nu k = 0) :
    load (dumpPy d v) = none ∧ load (dumpC rnd d v) = none := by
  have main : ∀ rnd : K → K, load (dump (str (d.N + 1)).length rnd d v) = none := by
    intro rnd
    rw [load_eq rnd d v hx, if_neg]
    rw [List.all_eq_true]
    intro h
    have h := h k (List.mem_range.2 (by omega))
    unfold stageOk at h
    simp only [Bool.and_eq_true, Bool.or_eq_true, beq_iff_eq, decide_eq_true_eq] at h
    have h1 : d.N ≤ k ∨ (k = 0 ∨ _) ∧ _ := h.1.1.1.1.1.1.1.1.1.1.1.1.1.1.1.1.1.1.2 |>.imp id (fun h => h.1)
    rcases h1 with h1 | ⟨_, h1⟩
    · omega
    · rw [mat_empty rnd d v .B k rfl (Or.inr hu), (mat_get rnd d v .A k rfl ⟨by omega, fun _ => hk⟩ (hx (k + 1) hk) (hx k (by omega))).1] at h1
      have := hx (k + 1) hk
      have h2 : 0 = d.nx (k + 1) := h1
      omega
  refine ⟨main id, ?_⟩
  by_cases h : (str d.N).length = (str (d.N + 1)).length
  · unfold dumpC
    rw [h]
    exact main rnd
  · exact load_digits _ rnd d v hx le_rfl h

/-- **C95 (buffer).** With no controls at the last stage the buffer of the C function has room for every field that is written
(`ni` is the number of inequalities of a stage, ocp_nlp_common.c:3463-3499). -/
theorem C95_buffer (d : Dims) (hN : d.nu d.N = 0) (he : ∀ k ≤ d.N, d.ne k ≤ d.nbu k + d.nbx k + d.ng k) (f : F) (k : Nat) (hk : k ≤ d.N) (hw : written d f k = true) :
    (size d f k).1 * (size d f k).2 ≤ bufferSize (∑ k ∈ Finset.range (d.N + 1), d.nbx k)
      (∑ k ∈ Finset.range (d.N + 1), (d.nbu k + d.nbx k + d.ng k + d.ns k)) (∑ k ∈ Finset.range (d.N + 1), d.nx k) (∑ k ∈ Finset.range d.N, d.nu k) := by
  have le : ∀ (g : Nat → Nat), g k ≤ ∑ k ∈ Finset.range (d.N + 1), g k := fun g =>
    Finset.single_le_sum (f := g) (fun _ _ => Nat.zero_le _) (Finset.mem_range.2 (by omega))
  have lx := le d.nx
  have li := le (fun k => d.nbu k + d.nbx k + d.ng k + d.ns k)
  have lu : d.nu k ≤ ∑ k ∈ Finset.range d.N, d.nu k := by
    by_cases h : k < d.N
    · exact Finset.single_le_sum (f := d.nu) (fun _ _ => Nat.zero_le _) (Finset.mem_range.2 h)
    · rw [show k = d.N by omega, hN]; exact Nat.zero_le _
  have ln : k < d.N → d.nx (k + 1) ≤ ∑ k ∈ Finset.range (d.N + 1), d.nx k := fun h =>
    Finset.single_le_sum (f := d.nx) (fun _ _ => Nat.zero_le _) (Finset.mem_range.2 (by omega))
  have he := he k hk
  have dyn : f.isDyn = true → k < d.N := by
    intro h
    unfold written at hw
    rw [h, Bool.true_and, Bool.and_eq_true, Bool.not_eq_true', beq_eq_false_iff_ne] at hw
    have := hw.1
    omega
  unfold bufferSize
  generalize (∑ k ∈ Finset.range (d.N + 1), d.nbx k) = a
  generalize (∑ k ∈ Finset.range (d.N + 1), (d.nbu k + d.nbx k + d.ng k + d.ns k)) = b at li ⊢
  generalize (∑ k ∈ Finset.range (d.N + 1), d.nx k) = c at lx ln ⊢
  generalize (∑ k ∈ Finset.range d.N, d.nu k) = e at lu ⊢
  have one : ∀ n, n ≤ a + b + c + e → n * 1 ≤ (a + b + c + e) * (a + b + c + e) ∧ 1 * n ≤ (a + b + c + e) * (a + b + c + e) := by
    intro n hn
    rcases Nat.eq_zero_or_pos (a + b + c + e) with h | h
    · have : n = 0 := by omega
      subst this
      exact ⟨by omega, by omega⟩
    · have := Nat.mul_le_mul hn h
      exact ⟨this, by rw [Nat.one_mul]; rwa [Nat.mul_one] at this⟩
  cases f <;> simp only [size] <;>
    first
    | exact (one _ (by omega)).1
    | exact (one _ (by omega)).2
    | exact Nat.mul_le_mul (by omega) (by omega)
    | (have := ln (dyn rfl); first | exact (one _ (by omega)).2 | exact Nat.mul_le_mul (by omega) (by omega))

/-! ## Examples -/

/-- two states, one control, a bound on each, an equality on the first state, a soft linear constraint; `N = 2` -/
def dEx : Dims := ⟨2, fun _ => 2, fun k => if k < 2 then 1 else 0, fun _ => 2, fun k => if k < 2 then 1 else 0, fun _ => 1, fun _ => 1, fun k => if k = 0 then 1 else 0⟩
def vEx : Data ℚ := fun f k r c => if f = .idxe then 1 else k + 2 * r + 3 * c

example : (∀ k ≤ dEx.N, 0 < dEx.nx k) ∧ (∀ k < dEx.N, 0 < dEx.nu k) ∧ EqOnX dEx vEx ∧ (str dEx.N).length = (str (dEx.N + 1)).length := by
  refine ⟨fun _ _ => by show 0 < 2; decide, fun k hk => ?_, fun k hk => ?_, by decide⟩
  · have : k < 2 := hk
    show 0 < if k < 2 then 1 else 0
    rw [if_pos this]; decide
  · have h2 : k ≤ 2 := hk
    have c : k = 0 ∨ k = 1 ∨ k = 2 := by omega
    rcases c with rfl | rfl | rfl
    · refine ⟨by decide, fun i hi => ?_⟩
      have : i < 1 := hi
      have : i = 0 := by omega
      subst this
      decide +kernel
    · refine ⟨by decide, fun i hi => ?_⟩
      have : i < 0 := hi
      omega
    · refine ⟨by decide, fun i hi => ?_⟩
      have : i < 0 := hi
      omega

/-- the hypotheses of the two refutations are met -/
example : (∀ k ≤ ({ dEx with N := 9 } : Dims).N, 0 < ({ dEx with N := 9 } : Dims).nx k) ∧ ({ dEx with N := 9 } : Dims).N + 1 = 10 ^ 1
    ∧ ({ dEx with N := 9 } : Dims).nu 5 = 0 := ⟨fun _ _ => by show 0 < 2; decide, rfl, rfl⟩

/-- keys of the C function for `N = 2` -/
example : ((dumpC id dEx vEx).map (·.1)).take 2 = [['A', '_', '0'], ['A', '_', '1']] := by decide +kernel

end Acados.QpDump
