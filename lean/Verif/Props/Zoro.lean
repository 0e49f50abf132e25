import Verif.Lemmas.ZoroReach
import Mathlib.Analysis.Real.Sqrt
/-!
# C79: zero-order robust optimisation update

Uncertainty matrices, back-offs and robust satisfaction of the original bounds.
-/
namespace Acados.Zoro
open Matrix
set_option linter.unusedSectionVars false
variable {K : Type*} [Field K] [LinearOrder K] {d : Dims}

/-- the noise term of the step is `G W_k G^T` with the `W_k` of the description: additional variances only with
a diagonal `W`, and a diagonal of `W` given as input only if there is a payload -/
def NoiseOk (ds : Desc K d) (data : List K) : Prop :=
  (ds.inWadd = true ∧ ∀ i j, i ≠ j → ds.W i j = 0) ∨
  (ds.inWadd = false ∧ (ds.inWdiag = false ∨ streaming ds data = some true))

section
variable {sq : K → K} {ds : Desc K d} {l : Lin K d} {gain : Nat → Mat K d.nu d.nx} {data : List K}
  {m m' : Mem K d} {n n0 n' : Nlp K d} {out : Nat → K}

theorem before_ok (hr : Reach sq ds n0 m) (hs : streaming ds data = some str) (hw : NoiseOk ds data) :
    LInv sq ds l gain data n0 n (start ds (readData ds str data m)) (d.N - 1)
      (before sq ds l gain data (readData ds str data m, n)) := by
  have hi := read_inv (reach_inv hr) str data
  have hn : NoiseInv ds (readData ds str data m) := noise_inv (reach_inv hr) str data (by
    rcases hw with h | ⟨h1, h2⟩
    · exact .inl h
    · refine .inr ⟨h1, h2.imp_right fun h => ?_⟩
      rw [hs] at h; simpa using h)
  exact before_inv sq ds l gain data n0 (_, n) hn hi.idxbu hi.idxbx hi.Cg hi.Dg

theorem final_same (h1 : m' = (propagateAll sq ds l gain data (readData ds str data m, n)).1) :
    m'.W = (start ds (readData ds str data m)).W ∧ m'.Sigma = (start ds (readData ds str data m)).Sigma
    ∧ m'.P 0 = (start ds (readData ds str data m)).P 0 := by
  have hf := all_fr sq ds l gain data (readData ds str data m, n)
  have hg := start_fr ds (readData ds str data m)
  rw [h1]
  exact ⟨hf.same.W.trans hg.same.W.symm, hf.same.Sigma.trans hg.same.Sigma.symm, hf.p0.trans hg.p0.symm⟩

/-- C79: after any history of updates, an update leaves the uncertainty matrices of the recursion of its mode,
for the current linearisation, gains, initial uncertainty and covariances.
Partial: not with additional variances on top of a non-diagonal `W` (`C79_offdiag_false`), and not without a
payload if the diagonal of `W` is an input (`C79_no_payload_false`). -/
theorem C79_propagation_partial (hr : Reach sq ds n0 m) (hN : 0 < d.N)
    (h : updateWith sq ds l gain data m n = .ok m' n' out) (hw : NoiseOk ds data) :
    ∀ k ≤ d.N, m'.P k = cov (modeOf ds) l gain ds.G (noiseAt ds m'.W data) m'.Sigma (m'.P 0) k := by
  obtain ⟨str, hs, -, h1, -, -⟩ := ok_out h
  have hb := before_ok (l := l) (gain := gain) (n := n) hr hs hw
  obtain ⟨e1, e2, e3⟩ := final_same h1
  have hp := propagate_P ds l gain data _ _ _ (d.N - 1) _ hb.noise hb.same.W hb.same.Sigma hb.p
  rw [Nat.sub_add_cancel hN] at hp
  rw [e1, e2, e3]
  intro k hk
  rw [← hp.P k hk, h1, all_eq]
  rfl

/-- C79: what the update takes from the payload and what it keeps -/
theorem C79_inputs (h : updateWith sq ds l gain data m n = .ok m' n' out) :
    (streaming ds data = some true →
      m'.P 0 = (if ds.inP0diag then newDiag (fun i => data.getD i 0) (m.P 0)
        else if ds.inP0 then fun i j => data.getD (i + j * d.nx) 0 else m.P 0)
      ∧ m'.W = (if ds.inWdiag then newDiag (fun i => data.getD (offW ds + i) 0) m.W else m.W)
      ∧ (ds.sensP = true → m'.Sigma = (if ds.inSdiag then newDiag (fun i => data.getD (offS ds + i) 0) m.Sigma
        else if ds.inS then fun i j => data.getD (offS ds + (i + j * d.np)) 0 else m.Sigma)))
    ∧ (streaming ds data = some false → m'.P 0 = m.P 0 ∧ m'.W = m.W ∧ m'.Sigma = m.Sigma) := by
  obtain ⟨str, hs, -, h1, -, -⟩ := ok_out h
  have hf := all_fr sq ds l gain data (readData ds str data m, n)
  rw [← h1] at hf
  have e1 : m'.P 0 = _ := hf.p0.trans (readData_P0 ds str data m)
  have e2 : m'.W = _ := hf.same.W.trans (readData_W ds str data m)
  have e3 : m'.Sigma = _ := hf.same.Sigma.trans (readData_Sigma ds str data m)
  refine ⟨fun ht => ?_, fun ht => ?_⟩
  · obtain rfl : str = true := by rw [hs] at ht; simpa using ht
    rw [e1, e2, e3]
    refine ⟨?_, ?_, fun hp => ?_⟩
    · unfold resetP0 packSq
      cases ds.inP0diag <;> cases ds.inP0 <;> (simp [setDiag_eq]; try rfl)
    · cases ds.inWdiag <;> simp [setDiag_eq]
    · unfold resetS packSq
      rw [hp]
      cases ds.inSdiag <;> cases ds.inS <;> (simp [setDiag_eq]; try rfl)
  · obtain rfl : str = false := by rw [hs] at ht; simpa using ht
    rw [e1, e2, e3]
    exact ⟨rfl, rfl, rfl⟩

/-- C79: a payload of the wrong length is refused, and a payload of the right length is used -/
theorem C79_payload (hp : 0 < dataSize ds) :
    (data ≠ [] → data.length ≠ dataSize ds → updateWith sq ds l gain data m n = .err)
    ∧ (data.length = dataSize ds → streaming ds data = some true) ∧ (data = [] → streaming ds data = some false) := by
  refine ⟨fun h1 h2 => ?_, fun h => ?_, fun h => ?_⟩
  · have : streaming ds data = none := by
      unfold streaming
      rw [if_pos hp, if_neg (by simpa using h1), if_pos h2]
    unfold updateWith; rw [this]
  · unfold streaming
    rw [if_pos hp, if_neg (by omega), if_neg (by simpa using h)]
  · unfold streaming
    rw [if_pos hp, if_pos (by rw [h]; rfl)]

/-- C79: the blocks of the payload follow each other in the documented order and fill it -/
theorem C79_layout (ds : Desc K d) (h1 : ¬ (ds.inP0diag = true ∧ ds.inP0 = true))
    (h2 : ¬ (ds.inSdiag = true ∧ ds.inS = true)) :
    offW ds = (if ds.inP0diag then d.nx else 0) + (if ds.inP0 then d.nx * d.nx else 0)
    ∧ offWadd ds = offW ds + (if ds.inWdiag then d.nw else 0)
    ∧ offS ds = offWadd ds + (if ds.inWadd then d.N * d.nw else 0)
    ∧ offP ds = offS ds + (if ds.inSdiag then d.np else 0) + (if ds.inS then d.np * d.np else 0)
    ∧ dataSize ds = offP ds + (if ds.outP then (d.N + 1) * d.nx * d.nx else 0) + (if ds.outT then 1 else 0) := by
  have e0 : d.nx ^ 2 = d.nx * d.nx := by ring
  have e1 : d.nx * d.nx * (d.N + 1) = (d.N + 1) * d.nx * d.nx := by ring
  have e2 : ∀ a : Nat, (if 0 < d.np then a + d.np else a) = a + d.np := by intro a; split <;> omega
  have e3 : ∀ a : Nat, (if 0 < d.np then a + d.np * d.np else a) = a + d.np * d.np := by
    intro a; split
    · rfl
    · have : d.np = 0 := by omega
      rw [this]; omega
  unfold dataSize offP offS offWadd offW
  rw [e0, e1]
  revert h1 h2
  cases ds.inP0diag <;> cases ds.inP0 <;> cases ds.inSdiag <;> cases ds.inS <;> cases ds.inWdiag <;>
    cases ds.inWadd <;> cases ds.outP <;> cases ds.outT <;> simp [e2, e3] <;> omega


theorem unpackP_spec (nx cnt off : Nat) (P : Nat → Mat K nx nx) (data : Nat → K) :
    (∀ k < cnt, ∀ i j : Fin nx, unpackP nx cnt off P data (off + k * nx * nx + (i + j * nx)) = P k i j)
    ∧ (∀ idx, (idx < off ∨ off + cnt * nx * nx ≤ idx) → unpackP nx cnt off P data idx = data idx) := by
  induction cnt with
  | zero => exact ⟨fun k hk => absurd hk (Nat.not_lt_zero k), fun idx _ => rfl⟩
  | succ c ih =>
    have hstep : ∀ idx, unpackP nx (c + 1) off P data idx =
        if h : off + c * nx * nx ≤ idx ∧ idx < off + c * nx * nx + nx * nx then
          P c ⟨(idx - (off + c * nx * nx)) % nx,
              Nat.mod_lt _ (Nat.pos_of_ne_zero fun h0 => by subst h0; omega)⟩
            ⟨(idx - (off + c * nx * nx)) / nx, Nat.div_lt_of_lt_mul (by omega)⟩
        else unpackP nx c off P data idx := by
      intro idx
      unfold unpackP
      rw [List.range_succ, List.foldl_append]; rfl
    refine ⟨fun k hk i j => ?_, fun idx h => ?_⟩
    · have hij : (i : Nat) + j * nx < nx * nx := by
        have h1 := i.isLt
        have h2 : (j : Nat) + 1 ≤ nx := j.isLt
        have h3 : ((j : Nat) + 1) * nx ≤ nx * nx := Nat.mul_le_mul_right _ h2
        rw [Nat.add_mul] at h3; omega
      rw [hstep]
      by_cases hc : k = c
      · subst hc
        rw [dif_pos ⟨by omega, by omega⟩]
        have e : off + k * nx * nx + ((i : Nat) + j * nx) - (off + k * nx * nx) = i + j * nx := by omega
        congr 1
        · apply Fin.ext
          show (off + k * nx * nx + ((i : Nat) + j * nx) - (off + k * nx * nx)) % nx = i
          rw [e, Nat.add_mul_mod_self_right, Nat.mod_eq_of_lt i.isLt]
        · apply Fin.ext
          show (off + k * nx * nx + ((i : Nat) + j * nx) - (off + k * nx * nx)) / nx = j
          rw [e, Nat.add_mul_div_right _ _ (by have := i.isLt; omega), Nat.div_eq_of_lt i.isLt, Nat.zero_add]
      · have hk' : k + 1 ≤ c := by omega
        have h4 : (k + 1) * nx * nx ≤ c * nx * nx := Nat.mul_le_mul_right _ (Nat.mul_le_mul_right _ hk')
        rw [Nat.add_mul, Nat.add_mul, Nat.one_mul] at h4
        rw [dif_neg (by omega)]
        exact ih.1 k (by omega) i j
    · have h4 : (c + 1) * nx * nx = c * nx * nx + nx * nx := by rw [Nat.add_mul, Nat.add_mul, Nat.one_mul]
      rw [hstep, dif_neg (by omega)]
      exact ih.2 idx (by omega)

/-- C79: with a payload and `output_P_matrices` the matrices of all stages are written, column by column and
stage after stage, into the output block of the payload; the rest of the payload is unchanged -/
theorem C79_output (h : updateWith sq ds l gain data m n = .ok m' n' out) :
    (streaming ds data = some true → ds.outP = true →
      (∀ k ≤ d.N, ∀ i j : Fin d.nx, out (offP ds + k * d.nx * d.nx + (i + j * d.nx)) = m'.P k i j)
      ∧ ∀ idx, (idx < offP ds ∨ offP ds + (d.N + 1) * d.nx * d.nx ≤ idx) → out idx = data.getD idx 0)
    ∧ (ds.outP = false → ∀ idx, out idx = data.getD idx 0) := by
  obtain ⟨str, hs, -, -, -, ho⟩ := ok_out h
  refine ⟨fun ht hp => ?_, fun hp idx => ?_⟩
  · obtain rfl : str = true := by rw [hs] at ht; simpa using ht
    rw [hp] at ho
    obtain ⟨h1, h2⟩ := unpackP_spec d.nx (d.N + 1) (offP ds) m'.P (fun i => data.getD i 0)
    rw [ho]
    exact ⟨fun k hk i j => h1 k (by omega) i j, fun idx hi => h2 idx hi⟩
  · rw [ho, hp]; simp

/-- C79: with symmetric initial uncertainty and covariances all uncertainty matrices are symmetric -/
theorem C79_symmetric_partial (hr : Reach sq ds n0 m) (hN : 0 < d.N)
    (h : updateWith sq ds l gain data m n = .ok m' n' out) (hw : NoiseOk ds data) (h0 : Sym (m'.P 0))
    (hW : Sym m'.W) (hS : modeOf ds ≠ .none → Sym m'.Sigma) : ∀ k ≤ d.N, Sym (m'.P k) := by
  intro k hk
  rw [C79_propagation_partial hr hN h hw k hk]
  refine cov_sym _ l gain ds.G _ _ _ d.N h0 (fun k _ => ?_) hS k hk
  unfold noiseAt; split
  · exact sym_add hW (diagonal_transpose _)
  · exact hW

/-- C79: with positive semidefinite initial uncertainty and covariances all uncertainty matrices are positive
semidefinite -/
theorem C79_psd_partial [IsStrictOrderedRing K] (hr : Reach sq ds n0 m) (hN : 0 < d.N)
    (h : updateWith sq ds l gain data m n = .ok m' n' out) (hw : NoiseOk ds data) (h0 : Psd (m'.P 0))
    (hW : ∀ k < d.N, Psd (noiseAt ds m'.W data k)) (hS : modeOf ds ≠ .none → Psd m'.Sigma) :
    ∀ k ≤ d.N, Psd (m'.P k) := by
  intro k hk
  rw [C79_propagation_partial hr hN h hw k hk]
  exact cov_psd _ l gain ds.G _ _ _ d.N h0 hW hS k hk

theorem hasKind_iff {rows : List (Row d)} {k : Kind} : hasKind rows k = true ↔ ∃ r ∈ rows, r.kind = k := by
  simp [hasKind]

theorem hasKindE_iff {rows : List (RowE d)} {k : Kind} : hasKindE rows k = true ↔ ∃ r ∈ rows, r.kind = k := by
  simp [hasKindE]

/-- C79: the bounds at the stages before the last.  A row that is to be tightened gets the bound of stage 1 at
creation, moved inwards by the square root of `gamma^2` times the variance of the row (plus the regularisation
of the barrier modes); the other rows of the same kind get the bound of stage 1 at creation; all other bounds
are left alone.  At stage 0 only the input bounds are touched.
Partial: the starting point is the bound of stage 1 at creation, whatever the bounds are now
(`C79_bounds_change_false`); and the noise hypothesis of `C79_propagation_partial`. -/
theorem C79_backoff_partial (hr : Reach sq ds n0 m) (hN : 0 < d.N)
    (h : updateWith sq ds l gain data m n = .ok m' n' out) (hw : NoiseOk ds data) (k : Nat) (hk : k < d.N)
    (r : Row d) :
    ∃ c : Fin d.nx → K, (∀ v e, rowAt n0 l k v e (-(gain k *ᵥ e)) r = v + c ⬝ᵥ e) ∧
    ((k = 0 → r.kind = .bu) → (∃ r' ∈ ds.loT, r'.kind = r.kind) →
      n'.lo k r = if r ∈ ds.loT then
        n0.lo 1 r + sq (ds.gamma ^ 2 * quad (m'.P k) c + if ds.barrier then ds.eps else 0) else n0.lo 1 r) ∧
    ((k = 0 → r.kind = .bu) → (∃ r' ∈ ds.hiT, r'.kind = r.kind) →
      n'.hi k r = if r ∈ ds.hiT then
        n0.hi 1 r - sq (ds.gamma ^ 2 * quad (m'.P k) c + if ds.barrier then ds.eps else 0) else n0.hi 1 r) ∧
    ((¬ (k = 0 → r.kind = .bu) ∨ ¬ ∃ r' ∈ ds.loT, r'.kind = r.kind) → n'.lo k r = n.lo k r) ∧
    ((¬ (k = 0 → r.kind = .bu) ∨ ¬ ∃ r' ∈ ds.hiT, r'.kind = r.kind) → n'.hi k r = n.hi k r) := by
  refine ⟨dir n0 l (gain k) k r, fun v e => rowAt_dir n0 l (gain k) k v e r, ?_⟩
  have hc := C79_propagation_partial hr hN h hw k (by omega)
  obtain ⟨str, hs, -, h1, h2, -⟩ := ok_out h
  have hb := before_ok (l := l) (gain := gain) (n := n) hr hs hw
  have hi := fr_inv (read_inv (reach_inv hr) str data) (start_fr ds (readData ds str data m))
  obtain ⟨e1, e2, e3⟩ := final_same h1
  have hlo := hb.nlo k (by omega) r
  have hhi := hb.nhi k (by omega) r
  have hcov : covAt ds l gain data (start ds (readData ds str data m)) k = m'.P k := by
    rw [hc, e1, e2, e3]; rfl
  rw [hcov] at hlo hhi
  have hbv : bval ds l n0 (gain k) (m'.P k) k r
      = ds.gamma ^ 2 * quad (m'.P k) (dir n0 l (gain k) k r) + if ds.barrier then ds.eps else 0 := by
    unfold bval; cases ds.barrier <;> simp [pow_two]
  have nl : n'.lo k r = (before sq ds l gain data (readData ds str data m, n)).2.lo k r := by rw [h2, all_eq]; rfl
  have nh : n'.hi k r = (before sq ds l gain data (readData ds str data m, n)).2.hi k r := by rw [h2, all_eq]; rfl
  unfold newLo at hlo
  unfold newHi at hhi
  rw [hbv, hi.lo] at hlo
  rw [hbv, hi.hi] at hhi
  simp only [hasKind_iff] at hlo hhi
  refine ⟨fun a b => ?_, fun a b => ?_, fun a => ?_, fun a => ?_⟩
  · rw [nl, hlo, if_pos ⟨a, b⟩]
    by_cases hm : r ∈ ds.loT
    · rw [if_pos hm, if_pos hm]
    · rw [if_neg hm, if_neg hm, hi.loT r hm]
  · rw [nh, hhi, if_pos ⟨a, b⟩]
    by_cases hm : r ∈ ds.hiT
    · rw [if_pos hm, if_pos hm]
    · rw [if_neg hm, if_neg hm, hi.hiT r hm]
  · rw [nl, hlo, if_neg (fun hh => a.elim (fun x => x hh.1) fun x => x hh.2)]
  · rw [nh, hhi, if_neg (fun hh => a.elim (fun x => x hh.1) fun x => x hh.2)]

/-- C79: the bounds of the terminal stage.  Partial: for the general linear rows only if the terminal matrix is
the beginning of that of the path (`C79_terminal_g_false`). -/
theorem C79_backoff_terminal_partial (hr : Reach sq ds n0 m) (_hN : 0 < d.N)
    (h : updateWith sq ds l gain data m n = .ok m' n' out) (hw : NoiseOk ds data)
    (r : RowE d) (hg : r.kind = .g → ∀ hn : d.nge ≤ d.ng, ∀ i j, n0.Cg (Fin.castLE hn i) j = n0.Cge i j) :
    ∃ c : Fin d.nx → K, (∀ v e, rowAtE n0 l v e r = v + c ⬝ᵥ e) ∧
    ((∃ r' ∈ ds.loTE, r'.kind = r.kind) →
      n'.loE r = if r ∈ ds.loTE then
        n0.loE r + sq (ds.gamma ^ 2 * quad (m'.P d.N) c + if ds.barrier then ds.eps else 0) else n0.loE r) ∧
    ((∃ r' ∈ ds.hiTE, r'.kind = r.kind) →
      n'.hiE r = if r ∈ ds.hiTE then
        n0.hiE r - sq (ds.gamma ^ 2 * quad (m'.P d.N) c + if ds.barrier then ds.eps else 0) else n0.hiE r) ∧
    ((¬ ∃ r' ∈ ds.loTE, r'.kind = r.kind) → n'.loE r = n.loE r) ∧
    ((¬ ∃ r' ∈ ds.hiTE, r'.kind = r.kind) → n'.hiE r = n.hiE r) := by
  refine ⟨dirE n0 l r, fun v e => rowAtE_dir n0 l v e r, ?_⟩
  obtain ⟨str, hs, hub, h1, h2, -⟩ := ok_out h
  have hb := before_ok (l := l) (gain := gain) (n := n) hr hs hw
  have hi := fr_inv (read_inv (reach_inv hr) str data) (start_fr ds (readData ds str data m))
  have hP : m'.P d.N = (propagate ds l gain data (d.N - 1) (before sq ds l gain data (readData ds str data m, n)).1).P d.N := by
    rw [h1, all_eq]; rfl
  rw [all_eq] at h2
  have hfp := propagate_fr ds l gain data (d.N - 1) (before sq ds l gain data (readData ds str data m, n)).1
  have hsm := hb.same.trans hfp.same
  have hne := hb.ne
  have hlt : ∀ r ∉ ds.loTE, (propagate ds l gain data (d.N - 1) (before sq ds l gain data (readData ds str data m, n)).1).loTE r
      = n0.loE r := fun r hr => by rw [hfp.loTE r hr, hb.te.1]; exact hi.loTE r hr
  have hht : ∀ r ∉ ds.hiTE, (propagate ds l gain data (d.N - 1) (before sq ds l gain data (readData ds str data m, n)).1).hiTE r
      = n0.hiE r := fun r hr => by rw [hfp.hiTE r hr, hb.te.2]; exact hi.hiTE r hr
  generalize propagate ds l gain data (d.N - 1) (before sq ds l gain data (readData ds str data m, n)).1 = mm at *
  generalize (before sq ds l gain data (readData ds str data m, n)).2 = nn at *
  obtain ⟨ta, tb⟩ := tightenE_spec sq ds l (gain (d.N - 1)) mm nn n0 hub (hsm.idxbxe.trans hi.idxbxe)
    (hsm.Cg.trans hi.Cg) r (fun hk hn => by funext i j; exact hg hk hn i j)
  have hbv : bvalE ds l n0 (mm.P d.N) r
      = ds.gamma ^ 2 * quad (m'.P d.N) (dirE n0 l r) + if ds.barrier then ds.eps else 0 := by
    rw [hP]; unfold bvalE; cases ds.barrier <;> simp [pow_two]
  rw [← h2, hbv, hsm.loE, hi.loE] at ta
  rw [← h2, hbv, hsm.hiE, hi.hiE] at tb
  simp only [hasKindE_iff] at ta tb
  refine ⟨fun b => ?_, fun b => ?_, fun a => ?_, fun a => ?_⟩
  · rw [ta, if_pos b]
    by_cases hm : r ∈ ds.loTE
    · rw [if_pos hm, if_pos hm]
    · rw [if_neg hm, if_neg hm, hlt r hm]
  · rw [tb, if_pos b]
    by_cases hm : r ∈ ds.hiTE
    · rw [if_pos hm, if_pos hm]
    · rw [if_neg hm, if_neg hm, hht r hm]
  · rw [ta, if_neg a, hne.1]
  · rw [tb, if_neg a, hne.2]

theorem sqrt_abs [IsStrictOrderedRing K] (hsq : SqrtOk sq) {x a t : K} (h : x ^ 2 ≤ a) (ht : 0 ≤ t) :
    -sq (a + t) ≤ x ∧ x ≤ sq (a + t) := by
  have h0 : 0 ≤ a + t := by nlinarith [sq_nonneg x]
  obtain ⟨h1, h2⟩ := hsq _ h0
  have : x ^ 2 ≤ sq (a + t) ^ 2 := by rw [pow_two (sq _), h2]; linarith
  exact abs_le.mp (abs_le_of_sq_le_sq this h1)

/-- C79: robust satisfaction.  If the nominal value of a tightened row meets the bounds set by the update, then
for every admissible disturbance of the linearised closed loop the disturbed value meets the original bound of
that row.  Partial: as for `C79_backoff_partial`. -/
theorem C79_robust_partial [IsStrictOrderedRing K] (hsq : SqrtOk sq) (heps : 0 ≤ ds.eps)
    (hr : Reach sq ds n0 m) (hN : 0 < d.N)
    (h : updateWith sq ds l gain data m n = .ok m' n' out) (hw : NoiseOk ds data) (z : Dist K d)
    (hl : Loop l gain ds.G z)
    (ha : Admissible (modeOf ds) ds.gamma (m'.P 0) (noiseAt ds m'.W data) m'.Sigma z) :
    (∀ k < d.N, ∀ r : Row d, (k = 0 → r.kind = .bu) → ∀ v,
      (r ∈ ds.loT → n'.lo k r ≤ v → n0.lo 1 r ≤ rowAt n0 l k v (z.e k) (-(gain k *ᵥ z.e k)) r)
      ∧ (r ∈ ds.hiT → v ≤ n'.hi k r → rowAt n0 l k v (z.e k) (-(gain k *ᵥ z.e k)) r ≤ n0.hi 1 r))
    ∧ (∀ r : RowE d, (r.kind = .g → ∀ hn : d.nge ≤ d.ng, ∀ i j, n0.Cg (Fin.castLE hn i) j = n0.Cge i j) → ∀ v,
      (r ∈ ds.loTE → n'.loE r ≤ v → n0.loE r ≤ rowAtE n0 l v (z.e d.N) r)
      ∧ (r ∈ ds.hiTE → v ≤ n'.hiE r → rowAtE n0 l v (z.e d.N) r ≤ n0.hiE r)) := by
  have ht : 0 ≤ (if ds.barrier then ds.eps else 0) := by split <;> simp [heps]
  have hx : ∀ k ≤ d.N, ∀ c : Fin d.nx → K, (c ⬝ᵥ z.e k) ^ 2 ≤ ds.gamma ^ 2 * quad (m'.P k) c := by
    intro k hk c
    rw [C79_propagation_partial hr hN h hw k hk]
    exact error_bound _ ds.gamma l gain ds.G _ _ _ z hl ha k hk c
  refine ⟨fun k hk r h0 v => ?_, fun r hg v => ?_⟩
  · obtain ⟨c, hc, h1, h2, -, -⟩ := C79_backoff_partial hr hN h hw k hk r
    obtain ⟨b1, b2⟩ := sqrt_abs hsq (hx k (by omega) c) ht
    rw [hc v (z.e k)]
    refine ⟨fun hm hv => ?_, fun hm hv => ?_⟩
    · rw [h1 h0 ⟨r, hm, rfl⟩, if_pos hm] at hv; linarith
    · rw [h2 h0 ⟨r, hm, rfl⟩, if_pos hm] at hv; linarith
  · obtain ⟨c, hc, h1, h2, -, -⟩ := C79_backoff_terminal_partial hr hN h hw r hg
    obtain ⟨b1, b2⟩ := sqrt_abs hsq (hx d.N le_rfl c) ht
    rw [hc v (z.e d.N)]
    refine ⟨fun hm hv => ?_, fun hm hv => ?_⟩
    · rw [h1 ⟨r, hm, rfl⟩, if_pos hm] at hv; linarith
    · rw [h2 ⟨r, hm, rfl⟩, if_pos hm] at hv; linarith


theorem update_ok {str : Bool} (hs : streaming ds data = some str)
    (h1 : (ds.inWadd && decide (0 < d.nw) && !str) = false) (h2 : terminalUb ds = false) :
    updateWith sq ds l gain data m n = .ok (propagateAll sq ds l gain data (readData ds str data m, n)).1
      (propagateAll sq ds l gain data (readData ds str data m, n)).2
      (if str && ds.outP then unpackP d.nx (d.N + 1) (offP ds)
        (propagateAll sq ds l gain data (readData ds str data m, n)).1.P fun i => data.getD i 0
       else fun i => data.getD i 0) := by
  unfold updateWith
  rw [hs]
  simp only [h1, h2]
  rfl
end

theorem sum1 {K : Type*} [Field K] (f : Fin 1 → K) : ∑ i, f i = f 0 := by simp
theorem sum0 {K : Type*} [Field K] (f : Fin 0 → K) : ∑ i, f i = 0 := by simp

/-! ### a case that meets the hypotheses -/

/-- two steps, one state with a bound, one input with a bound -/
def dE : Dims := ⟨2, 1, 1, 1, 0, 1, 1, 0, 0, 1, 0, 0⟩

def dsE (K : Type*) [Field K] : Desc K dE where
  gamma := 1
  eps := 0
  barrier := false
  mode := .none
  sensP := false
  P0 := fun _ _ => 1
  W := fun _ _ => 3
  G := fun _ _ => 1
  Sigma := 0
  Kfb := fun _ _ => 1
  loT := [.bu ⟨0, by decide⟩, .bx ⟨0, by decide⟩]
  hiT := [.bx ⟨0, by decide⟩]
  loTE := [.bx ⟨0, by decide⟩]
  hiTE := []
  inP0diag := false
  inP0 := false
  inWdiag := false
  inWadd := false
  inSdiag := false
  inS := false
  outP := false
  outT := false

def nE (K : Type*) [Field K] : Nlp K dE where
  idxbu := fun _ => ⟨0, by decide⟩
  idxbx := fun _ => ⟨0, by decide⟩
  idxbxe := fun _ => ⟨0, by decide⟩
  Cg := 0
  Dg := 0
  Cge := 0
  lo := fun _ _ => -10
  hi := fun _ _ => 10
  loE := fun _ => -10
  hiE := fun _ => 10

def lE (K : Type*) [Field K] : Lin K dE where
  A := fun _ _ _ => 2
  B := fun _ _ _ => 1
  Sp := fun _ => 0
  C := fun _ => 0
  D := fun _ => 0
  Ce := 0

/-- the error starts at 1 and the noise is 0 -/
def zE (K : Type*) [Field K] : Dist K dE where
  e := fun _ _ => 1
  w := fun _ _ => 0
  q := fun _ _ => 0
  p := fun _ => 0

/-- C79: the hypotheses of `C79_robust_partial` hold for this case over the real numbers -/
example : ∃ (m' : Mem ℝ dE) (n' : Nlp ℝ dE) (out : Nat → ℝ),
    SqrtOk (K := ℝ) Real.sqrt ∧ (0 : ℝ) ≤ (dsE ℝ).eps ∧ Reach Real.sqrt (dsE ℝ) (nE ℝ) (init (dsE ℝ) (nE ℝ) 0) ∧ 0 < dE.N ∧
    update Real.sqrt (dsE ℝ) (lE ℝ) [] (init (dsE ℝ) (nE ℝ) 0) (nE ℝ) = .ok m' n' out ∧ NoiseOk (dsE ℝ) [] ∧
    Loop (lE ℝ) (fun _ => (dsE ℝ).Kfb) (dsE ℝ).G (zE ℝ) ∧
    Admissible (modeOf (dsE ℝ)) (dsE ℝ).gamma (m'.P 0) (noiseAt (dsE ℝ) m'.W []) m'.Sigma (zE ℝ) := by
  refine ⟨_, _, _, fun x hx => ⟨Real.sqrt_nonneg x, Real.mul_self_sqrt hx⟩, le_rfl, .init 0, by decide,
    update_ok (str := false) rfl rfl rfl, .inr ⟨rfl, .inl rfl⟩, fun k _ => ?_, fun _ _ => rfl, fun _ => rfl,
    fun c0 cw cq cp => ?_⟩
  · funext i
    show (1 : ℝ) = ∑ _j : Fin 1, (2 - ∑ _k : Fin 1, (1 : ℝ) * 1) * 1 + ∑ _j : Fin 1, (1 : ℝ) * 0 + ∑ j : Fin 0, 0 * ((zE ℝ).q k + (zE ℝ).p) j
    rw [sum1, sum1, sum1, sum0]; norm_num
  · have hP : ∀ i j, ((propagateAll Real.sqrt (dsE ℝ) (lE ℝ) (fun _ => (dsE ℝ).Kfb) []
        (readData (dsE ℝ) false [] (init (dsE ℝ) (nE ℝ) 0), nE ℝ)).1.P 0) i j = 1 := by
      intro i j
      have h := C79_inputs (update_ok (sq := Real.sqrt) (ds := dsE ℝ) (l := lE ℝ) (gain := fun _ => (dsE ℝ).Kfb)
        (data := []) (m := init (dsE ℝ) (nE ℝ) 0) (n := nE ℝ) (str := false) rfl rfl rfl)
      rw [(h.2 rfl).1]; rfl
    have hW : (propagateAll Real.sqrt (dsE ℝ) (lE ℝ) (fun _ => (dsE ℝ).Kfb) []
        (readData (dsE ℝ) false [] (init (dsE ℝ) (nE ℝ) 0), nE ℝ)).1.W = fun _ _ => 3 := by
      have h := C79_inputs (update_ok (sq := Real.sqrt) (ds := dsE ℝ) (l := lE ℝ) (gain := fun _ => (dsE ℝ).Kfb)
        (data := []) (m := init (dsE ℝ) (nE ℝ) 0) (n := nE ℝ) (str := false) rfl rfl rfl)
      rw [(h.2 rfl).2.1]; rfl
    have q0 : quad ((propagateAll Real.sqrt (dsE ℝ) (lE ℝ) (fun _ => (dsE ℝ).Kfb) []
        (readData (dsE ℝ) false [] (init (dsE ℝ) (nE ℝ) 0), nE ℝ)).1.P 0) c0 = c0 ⟨0, by decide⟩ ^ 2 := by
      unfold quad
      have : ∀ f : Fin dE.nx → ℝ, ∑ i, f i = f ⟨0, by decide⟩ := fun f => sum1 f
      simp only [dotProduct, mulVec, hP, this]; ring
    have qw : ∀ k, 0 ≤ quad (noiseAt (dsE ℝ) (propagateAll Real.sqrt (dsE ℝ) (lE ℝ) (fun _ => (dsE ℝ).Kfb) []
        (readData (dsE ℝ) false [] (init (dsE ℝ) (nE ℝ) 0), nE ℝ)).1.W [] k) (cw k) := by
      intro k
      have e : noiseAt (dsE ℝ) (propagateAll Real.sqrt (dsE ℝ) (lE ℝ) (fun _ => (dsE ℝ).Kfb) []
        (readData (dsE ℝ) false [] (init (dsE ℝ) (nE ℝ) 0), nE ℝ)).1.W [] k = fun _ _ => 3 := hW
      rw [e]
      unfold quad
      have : ∀ f : Fin dE.nw → ℝ, ∑ i, f i = f ⟨0, by decide⟩ := fun f => sum1 f
      simp only [dotProduct, mulVec, this]; nlinarith [sq_nonneg (cw k ⟨0, by decide⟩)]
    have qs : ∀ (S : Mat ℝ dE.np dE.np) c, quad S c = 0 := fun S c => by
      unfold quad
      have : ∀ f : Fin dE.np → ℝ, ∑ i, f i = 0 := fun f => sum0 f
      simp only [dotProduct, this]
    have lhs : c0 ⬝ᵥ (zE ℝ).e 0 + (∑ k ∈ Finset.range dE.N, (cw k ⬝ᵥ (zE ℝ).w k + cq k ⬝ᵥ (zE ℝ).q k)) + cp ⬝ᵥ (zE ℝ).p
        = c0 ⟨0, by decide⟩ := by
      have : ∀ f : Fin dE.nx → ℝ, ∑ i, f i = f ⟨0, by decide⟩ := fun f => sum1 f
      simp [zE, dotProduct, this]
    rw [lhs, q0]
    have : 0 ≤ ∑ k ∈ Finset.range dE.N, (quad (noiseAt (dsE ℝ) (propagateAll Real.sqrt (dsE ℝ) (lE ℝ)
        (fun _ => (dsE ℝ).Kfb) [] (readData (dsE ℝ) false [] (init (dsE ℝ) (nE ℝ) 0), nE ℝ)).1.W [] k) (cw k)
        + quad (propagateAll Real.sqrt (dsE ℝ) (lE ℝ) (fun _ => (dsE ℝ).Kfb) []
        (readData (dsE ℝ) false [] (init (dsE ℝ) (nE ℝ) 0), nE ℝ)).1.Sigma (cq k)) :=
      Finset.sum_nonneg fun k _ => by rw [qs, add_zero]; exact qw k
    have hg : (dsE ℝ).gamma = 1 := rfl
    rw [hg, qs _ cp]
    linarith

/-- C79: the matrices and bounds of this case: `P = 1, 4, 7` -/
example : ((propagateAll id (dsE ℚ) (lE ℚ) (fun _ => (dsE ℚ).Kfb) []
      (readData (dsE ℚ) false [] (init (dsE ℚ) (nE ℚ) 0), nE ℚ)).1.P 2 ⟨0, by decide⟩ ⟨0, by decide⟩ = 7)
    ∧ ((propagateAll id (dsE ℚ) (lE ℚ) (fun _ => (dsE ℚ).Kfb) []
      (readData (dsE ℚ) false [] (init (dsE ℚ) (nE ℚ) 0), nE ℚ)).2.lo 1 (.bx ⟨0, by decide⟩) = -6) := by
  decide +kernel

/-! ### where the full statements fail -/

/-- C79: false in general. With additional variances, the entries of `W` off the diagonal are added to those of
the previous stage instead of replacing them: here `G W G^T = 4`, and `P = 0, 4, 10` instead of `0, 4, 8`. -/
theorem C79_offdiag_false : ¬ ∀ (d : Dims) (sq : ℚ → ℚ) (ds : Desc ℚ d) (l : Lin ℚ d) (data : List ℚ)
    (m m' : Mem ℚ d) (n n0 n' : Nlp ℚ d) (out : Nat → ℚ), Reach sq ds n0 m → 0 < d.N →
    streaming ds data = some true → update sq ds l data m n = .ok m' n' out →
    ∀ k ≤ d.N, m'.P k
      = cov (modeOf ds) l (fun _ => ds.Kfb) ds.G (noiseAt ds m'.W data) m'.Sigma (m'.P 0) k := by
  intro h
  let d : Dims := ⟨2, 1, 1, 2, 0, 0, 0, 0, 0, 0, 0, 0⟩
  let ds : Desc ℚ d :=
    { gamma := 1, eps := 0, barrier := false, mode := .none, sensP := false, P0 := fun _ _ => 0
      W := fun _ _ => 1, G := fun _ _ => 1, Sigma := 0, Kfb := fun _ _ => 0, loT := [], hiT := [], loTE := []
      hiTE := [], inP0diag := false, inP0 := false, inWdiag := false, inWadd := true, inSdiag := false
      inS := false, outP := false, outT := false }
  let n : Nlp ℚ d := ⟨Fin.elim0, Fin.elim0, Fin.elim0, 0, 0, 0, fun _ _ => 0, fun _ _ => 0, fun _ => 0, fun _ => 0⟩
  let l : Lin ℚ d := ⟨fun _ _ _ => 1, fun _ _ _ => 1, fun _ => 0, fun _ => 0, fun _ => 0, 0⟩
  have h1 := h d id ds l [0, 0, 0, 0] (init ds n 0) _ n n _ _ (.init 0) (by decide) (by decide +kernel)
    (update_ok (str := true) (by decide +kernel) (by decide) (by decide)) 2 (by decide)
  have h2 := congrFun (congrFun h1 ⟨0, by decide⟩) ⟨0, by decide⟩
  revert h2
  decide +kernel

/-- C79: false in general. If the diagonal of `W` is an input and an update is called without a payload before
any with one, there is no process noise at all, although the description has `W`. -/
theorem C79_no_payload_false : ¬ ∀ (d : Dims) (sq : ℚ → ℚ) (ds : Desc ℚ d) (l : Lin ℚ d) (data : List ℚ)
    (m m' : Mem ℚ d) (n n0 n' : Nlp ℚ d) (out : Nat → ℚ), Reach sq ds n0 m → 0 < d.N → ds.inWadd = false →
    update sq ds l data m n = .ok m' n' out →
    ∀ k ≤ d.N, m'.P k
      = cov (modeOf ds) l (fun _ => ds.Kfb) ds.G (noiseAt ds m'.W data) m'.Sigma (m'.P 0) k := by
  intro h
  have h1 := h dE id { dsE ℚ with inWdiag := true } (lE ℚ) [] (init { dsE ℚ with inWdiag := true } (nE ℚ) 0)
    _ (nE ℚ) (nE ℚ) _ _ (.init 0) (by decide) rfl
    (update_ok (str := false) (by decide +kernel) (by decide) (by decide)) 2 (by decide)
  have h2 := congrFun (congrFun h1 ⟨0, by decide⟩) ⟨0, by decide⟩
  revert h2
  decide +kernel

/-- C79: false in general. With additional variances as input a call without a payload, which is accepted for
every other input, reads through a null pointer. -/
theorem C79_null_false : ¬ ∀ (d : Dims) (sq : ℚ → ℚ) (ds : Desc ℚ d) (l : Lin ℚ d) (m : Mem ℚ d) (n n0 : Nlp ℚ d),
    Reach sq ds n0 m → 0 < d.N → update sq ds l [] m n ≠ .ub := by
  intro h
  exact h dE id { dsE ℚ with inWadd := true } (lE ℚ) (init { dsE ℚ with inWadd := true } (nE ℚ) 0) (nE ℚ) (nE ℚ)
    (.init 0) (by decide) rfl

/-- C79: false of the code. The documentation has `P+ = (A + B K) P (A + B K)^T + G W G^T`; the code uses
`A - B K`. -/
theorem C79_sign_false : ¬ ∀ (d : Dims) (sq : ℚ → ℚ) (ds : Desc ℚ d) (l : Lin ℚ d) (data : List ℚ)
    (m m' : Mem ℚ d) (n n0 n' : Nlp ℚ d) (out : Nat → ℚ), Reach sq ds n0 m → 0 < d.N → NoiseOk ds data →
    modeOf ds = .none → update sq ds l data m n = .ok m' n' out →
    ∀ k < d.N, m'.P (k + 1)
      = (l.A k + l.B k * ds.Kfb) * m'.P k * (l.A k + l.B k * ds.Kfb)ᵀ + ds.G * noiseAt ds m'.W data k * ds.Gᵀ := by
  intro h
  have h1 := h dE id (dsE ℚ) (lE ℚ) [] (init (dsE ℚ) (nE ℚ) 0) _ (nE ℚ) (nE ℚ) _ _ (.init 0) (by decide)
    (.inr ⟨rfl, .inl rfl⟩) rfl (update_ok (str := false) (by decide +kernel) (by decide) (by decide)) 0 (by decide)
  have h2 := congrFun (congrFun h1 ⟨0, by decide⟩) ⟨0, by decide⟩
  revert h2
  decide +kernel

/-- C79: false in general. The bound from which a back-off is taken is that of stage 1 at the creation of the
solver: a bound set later, or one of another stage, is lost in the next update.  Here the lower bound on the
state at stage 1 has been set to 0, and the update replaces it by -6. -/
theorem C79_bounds_change_false : ¬ ∀ (d : Dims) (sq : ℚ → ℚ) (ds : Desc ℚ d) (l : Lin ℚ d) (data : List ℚ)
    (m m' : Mem ℚ d) (n n0 n' : Nlp ℚ d) (out : Nat → ℚ), Reach sq ds n0 m → 0 < d.N → NoiseOk ds data →
    (∀ x, 0 ≤ sq x) → update sq ds l data m n = .ok m' n' out →
    ∀ k, 0 < k → k < d.N → ∀ r, n.lo k r ≤ n'.lo k r := by
  intro h
  have h1 := h dE abs (dsE ℚ) (lE ℚ) [] (init (dsE ℚ) (nE ℚ) 0) _ { nE ℚ with lo := fun _ _ => 0 } (nE ℚ) _ _
    (.init 0) (by decide) (.inr ⟨rfl, .inl rfl⟩) (fun x => abs_nonneg x)
    (update_ok (str := false) (by decide +kernel) (by decide) (by decide)) 1 (by decide) (by decide)
    (.bx ⟨0, by decide⟩)
  revert h1
  decide +kernel

/-- dimensions with one general linear row on the path and one at the end -/
def dG : Dims := ⟨2, 1, 1, 1, 0, 0, 0, 1, 0, 0, 1, 0⟩

/-- C79: false in general. The back-off of a terminal general linear row is computed with the matrix of the path:
here the terminal row is `3 x`, that of the path is `x`, `P_2 = 1`, and the squared back-off is 1 instead of 9. -/
theorem C79_terminal_g_false : ¬ ∀ (d : Dims) (sq : ℚ → ℚ) (ds : Desc ℚ d) (l : Lin ℚ d) (data : List ℚ)
    (m m' : Mem ℚ d) (n n0 n' : Nlp ℚ d) (out : Nat → ℚ), Reach sq ds n0 m → 0 < d.N → NoiseOk ds data →
    ds.barrier = false → update sq ds l data m n = .ok m' n' out →
    ∀ i : Fin d.nge, RowE.g i ∈ ds.loTE → n'.loE (.g i) = n0.loE (.g i) + sq (ds.gamma ^ 2 * quad (m'.P d.N) (n0.Cge i)) := by
  intro h
  let ds : Desc ℚ dG :=
    { gamma := 1, eps := 0, barrier := false, mode := .none, sensP := false, P0 := fun _ _ => 1
      W := fun _ _ => 0, G := fun _ _ => 1, Sigma := 0, Kfb := fun _ _ => 0, loT := [], hiT := []
      loTE := [.g ⟨0, by decide⟩], hiTE := [], inP0diag := false, inP0 := false, inWdiag := false, inWadd := false
      inSdiag := false, inS := false, outP := false, outT := false }
  let n : Nlp ℚ dG := ⟨Fin.elim0, Fin.elim0, Fin.elim0, fun _ _ => 1, 0, fun _ _ => 3, fun _ _ => 0, fun _ _ => 0,
    fun _ => 0, fun _ => 0⟩
  let l : Lin ℚ dG := ⟨fun _ _ _ => 1, fun _ _ _ => 1, fun _ => 0, fun _ => 0, fun _ => 0, 0⟩
  have h1 := h dG id ds l [] (init ds n 0) _ n n _ _ (.init 0) (by decide) (.inr ⟨rfl, .inl rfl⟩) rfl
    (update_ok (str := false) (by decide +kernel) (by decide) (by decide)) ⟨0, by decide⟩ (by decide)
  revert h1
  decide +kernel

/-- C79: false in general. With more terminal than path rows of a kind the update leaves its matrices. -/
theorem C79_terminal_oob_false : ¬ ∀ (d : Dims) (sq : ℚ → ℚ) (ds : Desc ℚ d) (l : Lin ℚ d) (data : List ℚ)
    (m : Mem ℚ d) (n n0 : Nlp ℚ d), Reach sq ds n0 m → 0 < d.N → streaming ds data = some true ∨ ds.inWadd = false →
    update sq ds l data m n ≠ .ub := by
  intro h
  let d : Dims := ⟨2, 1, 1, 1, 0, 0, 0, 0, 0, 0, 0, 1⟩
  let ds : Desc ℚ d :=
    { gamma := 1, eps := 0, barrier := false, mode := .none, sensP := false, P0 := fun _ _ => 1
      W := fun _ _ => 0, G := fun _ _ => 1, Sigma := 0, Kfb := fun _ _ => 0, loT := [], hiT := []
      loTE := [.h ⟨0, by decide⟩], hiTE := [], inP0diag := false, inP0 := false, inWdiag := false, inWadd := false
      inSdiag := false, inS := false, outP := false, outT := false }
  let n : Nlp ℚ d := ⟨Fin.elim0, Fin.elim0, Fin.elim0, 0, 0, 0, fun _ _ => 0, fun _ _ => 0, fun _ => 0, fun _ => 0⟩
  let l : Lin ℚ d := ⟨fun _ _ _ => 1, fun _ _ _ => 1, fun _ => 0, fun _ => 0, fun _ => 0, 0⟩
  exact h d id ds l [] (init ds n 0) n n (.init 0) (by decide) (.inr rfl) rfl

/-- C79: apart from those two cases the update does not leave its objects, and a payload of the right length or
none at all is accepted -/
theorem C79_accepts {K : Type*} [Field K] [LinearOrder K] {d : Dims} (sq : K → K) (ds : Desc K d) (l : Lin K d)
    (gain : Nat → Mat K d.nu d.nx) (data : List K) (m : Mem K d) (n : Nlp K d)
    (h1 : data = [] ∨ data.length = dataSize ds) (h2 : ds.inWadd = true → data ≠ [])
    (h3 : (∃ r ∈ ds.loTE ++ ds.hiTE, r.kind = .g) → d.nge ≤ d.ng)
    (h4 : (∃ r ∈ ds.loTE ++ ds.hiTE, r.kind = .h) → d.nhe ≤ d.nh) :
    ∃ m' n' out, updateWith sq ds l gain data m n = .ok m' n' out := by
  have ht : terminalUb ds = false := by
    unfold terminalUb
    by_cases a : d.nge ≤ d.ng <;> by_cases b : d.nhe ≤ d.nh
    · simp [a, b]
    · have : ¬ ∃ r ∈ ds.loTE ++ ds.hiTE, r.kind = .h := fun h => b (h4 h)
      simp only [List.mem_append, not_exists, not_and] at this
      have e1 : hasKindE ds.loTE .h = false := by
        rw [Bool.eq_false_iff]; intro h; obtain ⟨r, hr, hk⟩ := hasKindE_iff.mp h; exact this r (.inl hr) hk
      have e2 : hasKindE ds.hiTE .h = false := by
        rw [Bool.eq_false_iff]; intro h; obtain ⟨r, hr, hk⟩ := hasKindE_iff.mp h; exact this r (.inr hr) hk
      simp [a, e1, e2]
    · have : ¬ ∃ r ∈ ds.loTE ++ ds.hiTE, r.kind = .g := fun h => a (h3 h)
      simp only [List.mem_append, not_exists, not_and] at this
      have e1 : hasKindE ds.loTE .g = false := by
        rw [Bool.eq_false_iff]; intro h; obtain ⟨r, hr, hk⟩ := hasKindE_iff.mp h; exact this r (.inl hr) hk
      have e2 : hasKindE ds.hiTE .g = false := by
        rw [Bool.eq_false_iff]; intro h; obtain ⟨r, hr, hk⟩ := hasKindE_iff.mp h; exact this r (.inr hr) hk
      simp [b, e1, e2]
    · have t1 : ¬ ∃ r ∈ ds.loTE ++ ds.hiTE, r.kind = .g := fun h => a (h3 h)
      have t2 : ¬ ∃ r ∈ ds.loTE ++ ds.hiTE, r.kind = .h := fun h => b (h4 h)
      simp only [List.mem_append, not_exists, not_and] at t1 t2
      have e1 : hasKindE ds.loTE .g = false := by
        rw [Bool.eq_false_iff]; intro h; obtain ⟨r, hr, hk⟩ := hasKindE_iff.mp h; exact t1 r (.inl hr) hk
      have e2 : hasKindE ds.hiTE .g = false := by
        rw [Bool.eq_false_iff]; intro h; obtain ⟨r, hr, hk⟩ := hasKindE_iff.mp h; exact t1 r (.inr hr) hk
      have e3 : hasKindE ds.loTE .h = false := by
        rw [Bool.eq_false_iff]; intro h; obtain ⟨r, hr, hk⟩ := hasKindE_iff.mp h; exact t2 r (.inl hr) hk
      have e4 : hasKindE ds.hiTE .h = false := by
        rw [Bool.eq_false_iff]; intro h; obtain ⟨r, hr, hk⟩ := hasKindE_iff.mp h; exact t2 r (.inr hr) hk
      simp [e1, e2, e3, e4]
  have hlen : data ≠ [] → data.length ≠ 0 := fun h => by simpa using h
  by_cases hp : 0 < dataSize ds
  · by_cases hd : data = []
    · have hs := (C79_payload (sq := sq) (l := l) (gain := gain) (m := m) (n := n) (data := data) hp).2.2 hd
      have hw : ds.inWadd = false := by
        rw [Bool.eq_false_iff]; exact fun h => h2 h hd
      exact ⟨_, _, _, update_ok hs (by rw [hw]; rfl) ht⟩
    · have hs := (C79_payload (sq := sq) (l := l) (gain := gain) (m := m) (n := n) (data := data) hp).2.1
        (h1.resolve_left hd)
      exact ⟨_, _, _, update_ok hs (by simp) ht⟩
  · have hd : data = [] := by
      rcases h1 with h | h
      · exact h
      · exact List.eq_nil_of_length_eq_zero (by omega)
    have hw : ds.inWadd = false := by
      rw [Bool.eq_false_iff]; exact fun h => h2 h hd
    exact ⟨_, _, _, update_ok (str := false) (by unfold streaming; rw [if_neg hp]) (by rw [hw]; rfl) ht⟩

end Acados.Zoro
