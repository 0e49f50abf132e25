import Verif.Lemmas.MemAuto
import Verif.Model.MemQp
import Verif.Props.MemModules
/-!
# C02 for the QP layer

`Fits ops size`: started at any 8-byte aligned address, the assign function `ops` runs without an
assertion failure inside the `size` bytes, every array is aligned for its element type and the arrays
are disjoint (`Verif/Props/Mem.lean`).
-/
namespace Acados.Mem

theorem alignCharTo_of_dvd {a p : Nat} (ha : 0 < a) (h : a ∣ p) : alignCharTo a p = p := by
  obtain ⟨k, rfl⟩ := h
  unfold alignCharTo
  have e : (a * k + a - 1) / a = k := by
    apply Nat.div_eq_of_lt_le
    · rw [Nat.mul_comm k a]; omega
    · rw [Nat.add_mul, Nat.mul_comm k a]; omega
  rw [e, Nat.mul_comm]

/-- An alignment step right behind a struct at the start of an aligned buffer moves nothing. -/
theorem fits_struct_align {s size : Nat} {t : List Op} (hs : 8 ∣ s)
    (h : Fits (.struct s :: t) size) : Fits (.struct s :: .align 8 :: t) size := by
  intro base hb
  obtain ⟨rs, q, hr, h2⟩ := h base hb
  refine ⟨rs, q, ?_, h2⟩
  rw [← hr]
  simp only [run, Op.struct]
  rw [alignCharTo_of_dvd (by decide) (Nat.dvd_add hb hs)]

/-- two structs and an alignment step -/
theorem fits_struct2_align {s s' size : Nat} {t : List Op} (hs : 8 ∣ s) (hs' : 8 ∣ s')
    (h : Fits (.struct s :: .struct s' :: t) size) :
    Fits (.struct s :: .struct s' :: .align 8 :: t) size := by
  intro base hb
  obtain ⟨rs, q, hr, h2⟩ := h base hb
  refine ⟨rs, q, ?_, h2⟩
  rw [← hr]
  simp only [run, Op.struct]
  rw [alignCharTo_of_dvd (by decide) (Nat.dvd_add (Nat.dvd_add hb hs) hs')]

theorem need_alloc (n : Nat) (b : Bool) (s : Nat) (t : List Op) :
    need (.alloc n b s :: t) = s + need t := rfl

/-- Without alignment steps the pointer advances by exactly the sum of the sizes. -/
theorem run_end_of_no_align : ∀ {ops : List Op} {p q : Nat} {rs : List Region},
    (∀ o ∈ ops, ∀ a, o ≠ .align a) → run ops p = some (rs, q) → q = p + need ops := by
  intro ops
  induction ops with
  | nil => intro p q rs _ h; exact (Prod.mk.inj (Option.some.inj h)).2.symm
  | cons o t ih =>
    intro p q rs ho h
    cases o with
    | align a => exact absurd rfl (ho _ List.mem_cons_self a)
    | alloc nat b s =>
      simp only [run] at h
      split at h
      · exact nomatch h
      · cases hr : run t (p + s) with
        | none => rw [hr] at h; exact nomatch h
        | some x =>
          obtain ⟨rs', q'⟩ := x
          rw [hr] at h
          have e := ih (fun o h => ho o (List.mem_cons_of_mem _ h)) hr
          have e2 : q' = q := (Prod.mk.inj (Option.some.inj h)).2
          rw [need_alloc]
          omega

theorem run_append_some : ∀ {a b : List Op} {p q q' : Nat} {rs rs' : List Region},
    run a p = some (rs, q) → run b q = some (rs', q') → run (a ++ b) p = some (rs ++ rs', q') := by
  intro a
  induction a with
  | nil =>
    intro b p q q' rs rs' h1 h2
    obtain ⟨e1, e2⟩ := Prod.mk.inj (Option.some.inj h1)
    rw [← e1, List.nil_append, List.nil_append, e2]
    exact h2
  | cons o t ih =>
    intro b p q q' rs rs' h1 h2
    cases o with
    | align a => exact ih h1 h2
    | alloc nat c s =>
      simp only [run, List.cons_append] at h1 ⊢
      split at h1
      · exact nomatch h1
      · rename_i hc
        rw [if_neg hc]
        cases hr : run t (p + s) with
        | none => rw [hr] at h1; exact nomatch h1
        | some x =>
          obtain ⟨r1, q1⟩ := x
          rw [hr] at h1
          obtain ⟨e1, e2⟩ := Prod.mk.inj (Option.some.inj h1)
          rw [e2] at hr
          rw [ih hr h2, ← e1]
          rfl

/-- A block whose total size is a multiple of eight, followed by a block that fits on its own. -/
theorem fits_append {a b : List Op} {sb size : Nat} (hno : ∀ o ∈ a, ∀ k, o ≠ .align k)
    (hal : AlOK 8 a) (h8 : 8 ∣ need a) (hb : Fits b sb) (hsz : need a + sb ≤ size) :
    Fits (a ++ b) size := by
  intro base hbase
  obtain ⟨rs, q, hr, h1, h2, h3, h4⟩ := run_ok a 8 base hbase hal
  have hq : q = base + need a := run_end_of_no_align hno hr
  obtain ⟨rs', q', hr', g2, g3, g4⟩ := hb q (hq ▸ Nat.dvd_add hbase h8)
  refine ⟨rs ++ rs', q', run_append_some hr hr', by omega, ?_, ?_⟩
  · intro r hm
    rcases List.mem_append.1 hm with h | h
    · have := h3 r h
      exact ⟨this.1, by omega, this.2.2⟩
    · have := g3 r h
      exact ⟨by omega, by omega, this.2.2⟩
  · rw [List.pairwise_append]
    refine ⟨h4, g4, ?_⟩
    intro r hrs s hs
    have e1 := (h3 r hrs).2.1
    have e2 := (g3 s hs).1
    omega

/-! ## `ocp_qp_common.c` -/

theorem qpDimsSize_dvd (h : HpQp) : 8 ∣ qpDimsSize h :=
  Nat.dvd_add (dvd_makeIntMultipleOf _) (by decide)
theorem qpInSize_dvd (h : HpQp) : 8 ∣ qpInSize h := dvd_makeIntMultipleOf _
theorem qpOutSize_dvd (h : HpQp) : 8 ∣ qpOutSize h := dvd_makeIntMultipleOf _
theorem qpSeedSize_dvd {h : HpQp} (H : h.OK) : 8 ∣ qpSeedSize h := Nat.dvd_add H.szSeed H.seedMem
theorem qpResSize_dvd {h : HpQp} (H : h.OK) : 8 ∣ qpResSize h := Nat.dvd_add H.szRes H.resMem
theorem qpResWsSize_dvd {h : HpQp} (H : h.OK) : 8 ∣ qpResWsSize h := Nat.dvd_add H.szResWs H.resWsMem

theorem C02_qp_dims {h : HpQp} (H : h.OK) : Fits (qpDimsOps h) (qpDimsSize h) := by
  obtain ⟨h1, _, _, _, _, _, h7, _, _, _, _, _, _⟩ := H
  apply fits_of
  · unfold qpDimsOps; mem_al
  · unfold qpDimsOps qpDimsSize; mem_need

theorem C02_qp_in {h : HpQp} (H : h.OK) : Fits (qpInOps h) (qpInSize h) := by
  obtain ⟨h1, h2, h3, h4, h5, h6, h7, h8, h9, h10, h11, h12, h13⟩ := H
  apply fits_of
  · unfold qpInOps; mem_al
  · unfold qpInOps qpInSize; mem_need

theorem C02_qp_out {h : HpQp} (H : h.OK) : Fits (qpOutOps h) (qpOutSize h) := by
  obtain ⟨h1, h2, h3, h4, h5, h6, h7, h8, h9, h10, h11, h12, h13⟩ := H
  have hd := qpDimsSize_dvd h
  intro base hb
  -- the last alignment step moves nothing, `misc` ends on a multiple of eight
  have key : Fits [.align 8, .struct h.szOut, .align 8, .struct h.solMem, .struct h.szInfo,
      .struct (qpDimsSize h)] (qpOutSize h) := by
    apply fits_of
    · mem_al
    · unfold qpOutSize; mem_need
  obtain ⟨rs, q, hr, h2⟩ := key base hb
  refine ⟨rs, q, ?_, h2⟩
  rw [← hr]
  unfold qpOutOps
  simp only [run, Op.struct]
  rw [alignCharTo_of_dvd (by decide) hb, alignCharTo_of_dvd (by decide) (Nat.dvd_add hb h9),
    alignCharTo_of_dvd (by decide) (Nat.dvd_add (Nat.dvd_add (Nat.dvd_add hb h9) h3) h13)]

theorem C02_qp_seed {h : HpQp} (H : h.OK) : Fits (qpSeedOps h) (qpSeedSize h) := by
  have h10 := H.szSeed
  apply fits_of
  · unfold qpSeedOps; mem_al
  · unfold qpSeedOps qpSeedSize; mem_need

theorem C02_qp_res {h : HpQp} (H : h.OK) : Fits (qpResOps h) (qpResSize h) := by
  have h10 := H.szRes
  apply fits_of
  · unfold qpResOps; mem_al
  · unfold qpResOps qpResSize; mem_need

theorem C02_qp_res_workspace {h : HpQp} (H : h.OK) : Fits (qpResWsOps h) (qpResWsSize h) := by
  have h10 := H.szResWs
  apply fits_of
  · unfold qpResWsOps; mem_al
  · unfold qpResWsOps qpResWsSize; mem_need

/-! ## Partial condensing -/

theorem C02_pcond_dims (sz : Nat) (hs : 8 ∣ sz) {h : HpQp} (H : h.OK) (N : Nat) :
    Fits (pcondDimsOps sz h N) (pcondDimsSize sz h N) := by
  have h1 := H.szDims
  have h2 := H.dimMem
  apply fits_of
  · unfold pcondDimsOps; mem_al
  · unfold pcondDimsOps pcondDimsSize; mem_need

theorem C02_pcond_opts (sz szArg argMem szRed redMem N : Nat) (h1 : 8 ∣ sz) (h2 : 8 ∣ szArg)
    (h3 : 8 ∣ argMem) (h4 : 8 ∣ szRed) (h5 : 8 ∣ redMem) :
    Fits (pcondOptsOps sz szArg argMem szRed redMem N) (pcondOptsSize sz szArg argMem szRed redMem N) := by
  apply fits_of
  · unfold pcondOptsOps; mem_al
  · unfold pcondOptsOps pcondOptsSize; mem_need

theorem C02_pcond_memory (sz : Nat) (hs : 8 ∣ sz) {p r : HpQp} (P : p.OK) (R : r.OK)
    (szWs wsMem szRed redMem : Nat) (h1 : 8 ∣ szWs) (h2 : 8 ∣ wsMem) (h3 : 8 ∣ szRed)
    (h4 : 8 ∣ redMem) :
    Fits (pcondMemoryOps sz p r szWs wsMem szRed redMem)
      (pcondMemorySize sz p r szWs wsMem szRed redMem) := by
  have a1 := qpInSize_dvd p
  have a2 := qpOutSize_dvd p
  have a3 := qpSeedSize_dvd P
  have a4 := qpInSize_dvd r
  have a5 := qpOutSize_dvd r
  have a6 := qpSeedSize_dvd R
  apply fits_of
  · unfold pcondMemoryOps; mem_al
  · unfold pcondMemoryOps pcondMemorySize
    generalize qpInSize p = b1
    generalize qpOutSize p = b2
    generalize qpSeedSize p = b3
    generalize qpInSize r = b4
    generalize qpOutSize r = b5
    generalize qpSeedSize r = b6
    mem_need

/-! ## Dense QP -/

theorem denseInSize_dvd (h : HpDense) : 8 ∣ denseInSize h := dvd_makeIntMultipleOf _
theorem denseOutSize_dvd (h : HpDense) : 8 ∣ denseOutSize h := dvd_makeIntMultipleOf _
theorem denseSeedSize_dvd (h : HpDense) : 8 ∣ denseSeedSize h := dvd_makeIntMultipleOf _

theorem C02_dense_dims {h : HpDense} (H : h.OK) : Fits (denseDimsOps h) (denseDimsSize h) := by
  have h1 := H.szDims
  apply fits_of
  · unfold denseDimsOps; mem_al
  · unfold denseDimsOps denseDimsSize; mem_need

theorem C02_dense_in {h : HpDense} (H : h.OK) : Fits (denseInOps h) (denseInSize h) := by
  have h1 := H.szIn
  have h2 := H.qpMem
  apply fits_of
  · unfold denseInOps; mem_al
  · unfold denseInOps denseInSize; mem_need

theorem C02_dense_out {h : HpDense} (H : h.OK) : Fits (denseOutOps h) (denseOutSize h) := by
  have h1 := H.szOut
  have h2 := H.solMem
  apply fits_of
  · unfold denseOutOps; mem_al
  · unfold denseOutOps denseOutSize; mem_need

theorem C02_dense_seed {h : HpDense} (H : h.OK) : Fits (denseSeedOps h) (denseSeedSize h) := by
  have h1 := H.szSeed
  refine fits_struct_align h1 (fits_of _ _ (by mem_al) ?_)
  unfold denseSeedSize; mem_need

theorem C02_dense_res {h : HpDense} (H : h.OK) : Fits (denseResOps h) (denseResSize h) := by
  have h1 := H.szRes
  refine fits_struct_align h1 (fits_of _ _ (by mem_al) ?_)
  unfold denseResSize; mem_need

theorem C02_dense_res_workspace {h : HpDense} (H : h.OK) :
    Fits (denseResWsOps h) (denseResWsSize h) := by
  have h1 := H.szResWs
  refine fits_struct_align h1 (fits_of _ _ (by mem_al) ?_)
  unfold denseResWsSize; mem_need

/-! ## Full condensing -/

theorem C02_fcond_dims (sz : Nat) (hs : 8 ∣ sz) {h : HpQp} (H : h.OK) (szDense : Nat)
    (hd : 8 ∣ szDense) : Fits (fcondDimsOps sz h szDense) (fcondDimsSize sz h szDense) := by
  have h1 := H.szDims
  have h2 := H.dimMem
  apply fits_of
  · unfold fcondDimsOps; mem_al
  · unfold fcondDimsOps fcondDimsSize; mem_need

theorem C02_fcond_opts (sz szArg argMem szRed redMem : Nat) (h1 : 8 ∣ sz) (h2 : 8 ∣ szArg)
    (h3 : 8 ∣ argMem) (h4 : 8 ∣ szRed) :
    Fits (fcondOptsOps sz szArg argMem szRed redMem) (fcondOptsSize sz szArg argMem szRed redMem) := by
  apply fits_of
  · unfold fcondOptsOps; mem_al
  · unfold fcondOptsOps fcondOptsSize; mem_need

theorem C02_fcond_memory (sz : Nat) (hs : 8 ∣ sz) {f : HpDense} {r : HpQp} (R : r.OK)
    (szWs wsMem szRed redMem : Nat) (h1 : 8 ∣ szWs) (h2 : 8 ∣ wsMem) (h3 : 8 ∣ szRed)
    (h4 : 8 ∣ redMem) :
    Fits (fcondMemoryOps sz f r szWs wsMem szRed redMem)
      (fcondMemorySize sz f r szWs wsMem szRed redMem) := by
  have a1 := denseInSize_dvd f
  have a2 := denseOutSize_dvd f
  have a3 := denseSeedSize_dvd f
  have a4 := qpInSize_dvd r
  have a5 := qpOutSize_dvd r
  have a6 := qpSeedSize_dvd R
  apply fits_of
  · unfold fcondMemoryOps; mem_al
  · unfold fcondMemoryOps fcondMemorySize
    generalize denseInSize f = b1
    generalize denseOutSize f = b2
    generalize denseSeedSize f = b3
    generalize qpInSize r = b4
    generalize qpOutSize r = b5
    generalize qpSeedSize r = b6
    mem_need

/-! ## Condensing plus solver -/

theorem al_asserted8 {m s : Nat} {t : List Op} (hm : 8 ∣ m) (hs : 8 ∣ s) (h : AlOK 8 t) :
    AlOK m (.alloc 8 true s :: t) := al_alloc hm (by decide) hs h
theorem al_asserted8_last {m s : Nat} (hm : 8 ∣ m) : AlOK m [.alloc 8 true s] := ⟨hm, trivial⟩

theorem C02_xcond_config (sz szSolver szCond : Nat) (h1 : 8 ∣ sz) (h2 : 8 ∣ szSolver) :
    Fits (xcondConfigOps sz szSolver szCond) (xcondConfigSize sz szSolver szCond) := by
  apply fits_of
  · unfold xcondConfigOps; mem_al
  · unfold xcondConfigOps xcondConfigSize; mem_need

theorem C02_xcond_dims (sz : Nat) (h1 : 8 ∣ sz) (h : HpQp) (cond : Nat) :
    Fits (xcondDimsOps sz h cond) (xcondDimsSize sz h cond) := by
  have h2 := qpDimsSize_dvd h
  apply fits_of
  · unfold xcondDimsOps; mem_al
  · unfold xcondDimsOps xcondDimsSize; mem_need

theorem C02_xcond_opts (sz cond solver : Nat) (h1 : 8 ∣ sz) (h2 : 8 ∣ cond) :
    Fits (xcondOptsOps sz cond solver) (xcondOptsSize sz cond solver) := by
  apply fits_of
  · unfold xcondOptsOps
    exact al_struct (by decide) h1 (al_align (by decide) (al_struct (by decide) h2
      (al_asserted8_last (by decide))))
  · unfold xcondOptsOps xcondOptsSize
    refine Nat.le_trans ?_ (le_makeIntMultipleOf _ _)
    simp only [need_struct, need_align, need_alloc, need_nil]
    omega

theorem C02_xcond_memory (sz cond solver : Nat) (h1 : 8 ∣ sz) (h2 : 8 ∣ cond) :
    Fits (xcondMemoryOps sz cond solver) (xcondMemorySize sz cond solver) := by
  apply fits_of
  · unfold xcondMemoryOps
    exact al_struct (by decide) h1 (al_align (by decide) (al_struct (by decide) h2
      (al_asserted8_last (by decide))))
  · unfold xcondMemoryOps xcondMemorySize
    simp only [need_struct, need_align, need_alloc, need_nil]
    omega

theorem C02_xcond_workspace (sz cond solver : Nat) (h1 : 8 ∣ sz) (h2 : 8 ∣ cond) :
    Fits (xcondWorkspaceOps sz cond solver) (xcondWorkspaceSize sz cond solver) := by
  apply fits_of
  · unfold xcondWorkspaceOps; mem_al
  · unfold xcondWorkspaceOps xcondWorkspaceSize; mem_need

/-! ## QP solver interfaces -/

theorem C02_hpipm (sz szHp mem : Nat) (h1 : 8 ∣ sz) (h2 : 8 ∣ szHp) :
    Fits (hpipmOps sz szHp mem) (hpipmSize sz szHp mem) := by
  apply fits_of
  · unfold hpipmOps; mem_al
  · unfold hpipmOps hpipmSize; mem_need

theorem C02_daqp_opts (sz szSet : Nat) (h1 : 8 ∣ sz) :
    Fits (daqpOptsOps sz szSet) (daqpOptsSize sz szSet) := by
  apply fits_of
  · unfold daqpOptsOps; mem_al
  · unfold daqpOptsOps daqpOptsSize; mem_need

theorem C02_daqp_workspace (sz : Nat) (hs : 8 ∣ sz) (n m ns : Nat) :
    Fits (daqpWorkOps sz n m ns) (daqpWorkSize sz n m ns) := by
  refine fits_struct_align hs (fits_of _ _ (by mem_al) ?_)
  unfold daqpWorkSize
  generalize (n + ns + 2) * (n + ns + 1) / 2 = L
  generalize n * m = nm
  mem_need

/-- The DAQP interface lays its memory out correctly when the number of slacks is even. -/
theorem C02_daqp_memory_partial (B : Blasfeo) (sz sm sv szW : Nat) (h1 : 8 ∣ sz) (h2 : 8 ∣ sm)
    (h3 : 8 ∣ sv) (n m ns : Nat) (hns : 2 ∣ ns) :
    Fits (daqpMemoryOps B sz sm sv szW n m ns) (daqpMemorySize B sz sm sv szW n m ns) := by
  have hw : 8 ∣ daqpWorkSize szW n m ns := dvd_makeIntMultipleOf _
  apply fits_of
  · unfold daqpMemoryOps
    iterate 6 refine al_struct (by decide) (by assumption) ?_
    refine al_asserted8 (by decide) hw (al_asserted8 (by decide) (Nat.dvd_mul_right 8 m) ?_)
    refine al_rawDoubles (by decide) ?_
    refine al_alloc (k := 8) (by decide) (by decide) ?_ ?_
    · obtain ⟨k, rfl⟩ := hns
      exact ⟨k, by omega⟩
    mem_al
  · unfold daqpMemoryOps daqpMemorySize
    generalize daqpWorkSize szW n m ns = w
    refine Nat.le_trans ?_ (le_makeIntMultipleOf _ _)
    simp only [need_struct, need_align, need_alloc, need_nil, need_rawDoubles, need_ints, need_dmat,
      need_dvec]
    omega

/-- With an odd number of slacks the `double` arrays of the DAQP interface are misaligned. -/
theorem C02_daqp_memory_false :
    ¬ (∀ (B : Blasfeo) (sz sm sv szW n m ns : Nat), 8 ∣ sz → 8 ∣ sm → 8 ∣ sv → 8 ∣ szW →
        Fits (daqpMemoryOps B sz sm sv szW n m ns) (daqpMemorySize B sz sm sv szW n m ns)) := by
  intro H
  obtain ⟨rs, q, hr, _, ha, _⟩ :=
    H (panelBlasfeo 4 4) 160 48 32 400 1 1 1 (by decide) (by decide) (by decide) (by decide) 0
      (by decide)
  have e : (run (daqpMemoryOps (panelBlasfeo 4 4) 160 48 32 400 1 1 1) 0).map
      (fun x => decide (∀ r ∈ x.1, r.natural ∣ r.start)) = some false := by decide
  rw [hr] at e
  have e2 : decide (∀ r ∈ rs, r.natural ∣ r.start) = false := Option.some.inj e
  exact of_decide_eq_false e2 (fun r h => (ha r h).2.2)

theorem C02_dense_ooqp_memory (sz : Nat) (hs : 8 ∣ sz) (nv ne ng : Nat) :
    Fits (denseOoqpMemoryOps sz nv ne ng) (denseOoqpMemorySize sz nv ne ng) := by
  apply fits_of
  · unfold denseOoqpMemoryOps; mem_al
  · unfold denseOoqpMemoryOps denseOoqpMemorySize; mem_need

theorem C02_dense_ooqp_workspace (sz : Nat) (hs : 8 ∣ sz) (nx my mz : Nat) :
    Fits (denseOoqpWorkspaceOps sz nx my mz) (denseOoqpWorkspaceSize sz nx my mz) := by
  apply fits_of
  · unfold denseOoqpWorkspaceOps; mem_al
  · unfold denseOoqpWorkspaceOps denseOoqpWorkspaceSize; mem_need

theorem C02_qpoases_memory (sz : Nat) (hs : 8 ∣ sz) (st : HpDense) (d : QpoasesD)
    (hq : 4 ∣ d.qpMem) (hb : 4 ∣ d.qpbMem) :
    Fits (qpoasesMemoryOps sz st d) (qpoasesMemorySize sz st d) := by
  have hst := denseInSize_dvd st
  unfold qpoasesMemoryOps qpoasesMemorySize
  have hm : 4 ∣ (if d.ng > 0 ∨ d.ns > 0 then d.qpMem else d.qpbMem) := by split <;> assumption
  generalize (if d.ng > 0 ∨ d.ns > 0 then d.qpMem else d.qpbMem) = qm at hm
  generalize d.nv2 = nv2
  generalize d.ng2 = ng2
  generalize d.nb2 = nb2
  have tail : AlOK 8 (.alloc 8 true qm :: [.ints d.nb, .ints nb2, .ints d.ns, .ints (d.nb + d.ng)]) := by
    refine ⟨by decide, ?_⟩
    refine AlOK.mono (m := 4) (Nat.dvd_gcd (by decide) hm) ?_
    mem_al
  by_cases h : d.ns > 0
  · simp only [if_pos h]
    apply fits_of
    · mem_norm
      refine al_struct (by decide) hs (al_asserted8 (by decide) hst ?_)
      iterate 25 refine al_doubles (by decide) ?_
      exact tail
    · refine Nat.le_trans ?_ (le_makeIntMultipleOf _ _)
      generalize denseInSize st = a
      simp only [List.cons_append, List.nil_append, need_struct, need_alloc, need_doubles, need_ints,
        need_nil]
      linarith
  · simp only [if_neg h]
    apply fits_of
    · mem_norm
      refine al_struct (by decide) hs ?_
      iterate 25 refine al_doubles (by decide) ?_
      exact tail
    · refine Nat.le_trans ?_ (le_makeIntMultipleOf _ _)
      simp only [List.cons_append, List.nil_append, need_struct, need_alloc, need_doubles, need_ints,
        need_nil]
      linarith

theorem C02_ooqp_memory (sz : Nat) (hs : 8 ∣ sz) (nx my mz nnzQ nnzA nnzC : Nat) :
    Fits (ooqpMemoryOps sz nx my mz nnzQ nnzA nnzC) (ooqpMemorySize sz nx my mz nnzQ nnzA nnzC) := by
  apply fits_of
  · unfold ooqpMemoryOps; mem_al
  · unfold ooqpMemoryOps ooqpMemorySize; mem_need

/-- The workspace of the sparse OOQP interface is large enough and well aligned when the largest
number of nonzeros is even. -/
theorem C02_ooqp_workspace_partial (sz : Nat) (hs : 8 ∣ sz) (nx my mz nnz : Nat) (hn : 2 ∣ nnz) :
    Fits (ooqpWorkspaceOps sz nx my mz nnz) (ooqpWorkspaceSize sz nx my mz nnz) := by
  apply fits_of
  · unfold ooqpWorkspaceOps
    refine al_struct (by decide) hs ?_
    iterate 7 refine al_rawDoubles (by decide) ?_
    refine al_alloc (k := 8) (by decide) (by decide) ?_ ?_
    · obtain ⟨k, rfl⟩ := hn
      exact ⟨k, by omega⟩
    mem_al
  · unfold ooqpWorkspaceOps ooqpWorkspaceSize; mem_need

/-- With an odd number of nonzeros the array of doubles behind the array of ints is misaligned. -/
theorem C02_ooqp_workspace_false :
    ¬ (∀ (sz nx my mz nnz : Nat), 8 ∣ sz →
        Fits (ooqpWorkspaceOps sz nx my mz nnz) (ooqpWorkspaceSize sz nx my mz nnz)) := by
  intro H
  obtain ⟨rs, q, hr, _, ha, _⟩ := H 72 1 0 0 1 (by decide) 0 (by decide)
  have e : (run (ooqpWorkspaceOps 72 1 0 0 1) 0).map
      (fun x => decide (∀ r ∈ x.1, r.natural ∣ r.start)) = some false := by decide
  rw [hr] at e
  have e2 : decide (∀ r ∈ rs, r.natural ∣ r.start) = false := Option.some.inj e
  exact of_decide_eq_false e2 (fun r h => (ha r h).2.2)

theorem C02_qpdunes_workspace (sz : Nat) (hs : 8 ∣ sz) (nx nu nD : Nat) :
    Fits (qpdunesWorkspaceOps sz nx nu nD) (qpdunesWorkspaceSize sz nx nu nD) := by
  apply fits_of
  · unfold qpdunesWorkspaceOps; mem_al
  · unfold qpdunesWorkspaceOps qpdunesWorkspaceSize; mem_need

theorem C02_clarabel_memory (sz : Nat) (hs : 8 ∣ sz) (n m pnnz annz : Nat) :
    Fits (clarabelMemoryOps sz n m pnnz annz) (clarabelMemorySize sz n m pnnz annz) := by
  apply fits_of
  · unfold clarabelMemoryOps; mem_al
  · unfold clarabelMemoryOps clarabelMemorySize; mem_need

theorem al_cints {s : OsqpSz} {m n : Nat} {t : List Op} (hm : s.w ∣ m) (h : AlOK s.w t) :
    AlOK m (s.cints n :: t) := al_alloc hm (Nat.dvd_refl _) (Nat.dvd_mul_right _ n) h
theorem need_cints (s : OsqpSz) (n : Nat) (t : List Op) :
    need (s.cints n :: t) = s.w * n + need t := rfl

theorem C02_osqp_workspace {s : OsqpSz} (S : s.OK) (hw : s.w = 4 ∨ s.w = 8) (n m pnnz annz : Nat) :
    Fits (osqpWorkOps s n m pnnz annz) (osqpWorkSize s n m pnnz annz) := by
  obtain ⟨h1, h2, h3, h4, h5, h6, h7, h8⟩ := S
  have h8w : s.w ∣ 8 := by rcases hw with h | h <;> rw [h] <;> decide
  apply fits_of
  · unfold osqpWorkOps
    iterate 9 refine al_struct (by decide) (by assumption) ?_
    refine al_align (by decide) ?_
    iterate 33 refine al_rawDoubles (by decide) ?_
    refine al_cints h8w ?_
    iterate 8 refine al_cints (Nat.dvd_refl _) ?_
    exact al_nil _
  · unfold osqpWorkOps osqpWorkSize
    simp only [need_struct, need_align, need_cints, need_nil, need_rawDoubles, Nat.mul_add, Nat.mul_one]
    generalize s.w * m = x1
    generalize s.w * pnnz = x2
    generalize s.w * annz = x3
    generalize s.w * n = x4
    linarith

/-- The OSQP interface with 8-byte indices (OSQP's default, DLONG), or with 4-byte indices when the
numbers of nonzeros have an even sum. -/
theorem C02_osqp_memory_partial (sz : Nat) (hs : 8 ∣ sz) {s : OsqpSz} (S : s.OK) (n m pnnz annz : Nat)
    (hw : s.w = 8 ∨ (s.w = 4 ∧ 2 ∣ pnnz + annz)) :
    Fits (osqpMemoryOps sz s n m pnnz annz) (osqpMemorySize sz s n m pnnz annz) := by
  obtain ⟨h1, h2, h3, h4, h5, h6, h7, h8⟩ := S
  have htail : AlOK 8 [.struct s.data, .struct s.csc, .struct s.csc,
      .struct (osqpWorkSize s n m pnnz annz)] :=
    al_struct (by decide) h2 (al_struct (by decide) h3 (al_struct (by decide) h3
      (al_struct_last (by decide))))
  rcases hw with hw | ⟨hw, hp⟩
  · apply fits_of
    · unfold osqpMemoryOps
      refine al_struct (by decide) hs (al_align (by decide) ?_)
      iterate 5 refine al_rawDoubles (by decide) ?_
      refine al_cints (by rw [hw]) ?_
      iterate 3 refine al_cints (Nat.dvd_refl _) ?_
      rw [hw]
      exact htail
    · unfold osqpMemoryOps osqpMemorySize
      generalize osqpWorkSize s n m pnnz annz = x0
      simp only [need_struct, need_align, need_cints, need_nil, need_rawDoubles, hw]
      omega
  · -- the four index arrays end on a multiple of eight
    unfold osqpMemoryOps
    refine fits_struct_align hs ?_
    refine fits_append
      (a := [.struct sz, .rawDoubles n, .rawDoubles m, .rawDoubles m, .rawDoubles pnnz,
        .rawDoubles annz, s.cints pnnz, s.cints (n + 1), s.cints annz, s.cints (n + 1)])
      (sb := s.data + s.csc + s.csc + osqpWorkSize s n m pnnz annz) ?_ ?_ ?_
      (fits_of _ _ htail ?_) ?_
    · intro o ho a
      simp only [List.mem_cons, List.not_mem_nil, or_false] at ho
      rcases ho with h | h | h | h | h | h | h | h | h | h <;> rw [h] <;> exact fun e => nomatch e
    · refine al_struct (by decide) hs ?_
      iterate 5 refine al_rawDoubles (by decide) ?_
      refine al_cints (by rw [hw]; decide) ?_
      iterate 3 refine al_cints (Nat.dvd_refl _) ?_
      exact al_nil _
    · simp only [need_struct, need_cints, need_nil, need_rawDoubles, hw]
      obtain ⟨b, hb'⟩ := hs
      obtain ⟨c, hc⟩ := hp
      refine ⟨b + n + m + m + pnnz + annz + c + (n + 1), ?_⟩
      omega
    · simp only [need_struct, need_nil]; omega
    · unfold osqpMemorySize
      generalize osqpWorkSize s n m pnnz annz = x0
      simp only [need_struct, need_cints, need_nil, need_rawDoubles, hw]
      omega

/-- With 4-byte indices and an odd number of nonzeros the OSQP structs are misaligned. -/
theorem C02_osqp_memory_false :
    ¬ (∀ (sz : Nat) (s : OsqpSz) (n m pnnz annz : Nat), 8 ∣ sz → s.OK → s.w = 4 →
        Fits (osqpMemoryOps sz s n m pnnz annz) (osqpMemorySize sz s n m pnnz annz)) := by
  intro H
  obtain ⟨rs, q, hr, _, ha, _⟩ :=
    H 120 ⟨4, 200, 40, 48, 136, 48, 88, 16, 88⟩ 1 1 1 2 (by decide)
      ⟨by decide, by decide, by decide, by decide, by decide, by decide, by decide, by decide⟩ rfl 0
      (by decide)
  have e : (run (osqpMemoryOps 120 ⟨4, 200, 40, 48, 136, 48, 88, 16, 88⟩ 1 1 1 2) 0).map
      (fun x => decide (∀ r ∈ x.1, r.natural ∣ r.start)) = some false := by decide
  rw [hr] at e
  have e2 : decide (∀ r ∈ rs, r.natural ∣ r.start) = false := Option.some.inj e
  exact of_decide_eq_false e2 (fun r h => (ha r h).2.2)

/-! Concrete instances: the hypotheses hold for realistic struct sizes. -/

/-- sizes of a small QP (rounded to multiples of eight) -/
def exampleHp : HpQp :=
  ⟨512, 20480, 4096, 4096, 4096, 512, 120, 208, 56, 40, 96, 24, 64⟩
theorem exampleHp_ok : exampleHp.OK := by
  constructor <;> decide
example : Fits (qpInOps exampleHp) (qpInSize exampleHp) := C02_qp_in exampleHp_ok
example : Fits (qpOutOps exampleHp) (qpOutSize exampleHp) := C02_qp_out exampleHp_ok
example : Fits (pcondDimsOps 64 exampleHp 20) (pcondDimsSize 64 exampleHp 20) :=
  C02_pcond_dims 64 (by decide) exampleHp_ok 20
example : Fits (qpoasesMemoryOps 400 ⟨64, 4096, 800, 800, 800, 96, 64, 208, 56, 40, 96, 24, 64⟩
    ⟨7, 0, 3, 4, 2, 11, 5, 8, 9000, 5000⟩)
    (qpoasesMemorySize 400 ⟨64, 4096, 800, 800, 800, 96, 64, 208, 56, 40, 96, 24, 64⟩
    ⟨7, 0, 3, 4, 2, 11, 5, 8, 9000, 5000⟩) :=
  C02_qpoases_memory _ (by decide) _ _ (by decide) (by decide)
example : Fits (daqpMemoryOps (panelBlasfeo 4 4) 160 48 32 400 5 7 2)
    (daqpMemorySize (panelBlasfeo 4 4) 160 48 32 400 5 7 2) :=
  C02_daqp_memory_partial _ _ _ _ _ (by decide) (by decide) (by decide) _ _ _ (by decide)
example : Fits (osqpMemoryOps 120 ⟨4, 200, 40, 48, 136, 48, 88, 16, 88⟩ 6 4 9 11)
    (osqpMemorySize 120 ⟨4, 200, 40, 48, 136, 48, 88, 16, 88⟩ 6 4 9 11) :=
  C02_osqp_memory_partial _ (by decide)
    ⟨by decide, by decide, by decide, by decide, by decide, by decide, by decide, by decide⟩ _ _ _ _
    (Or.inr ⟨rfl, by decide⟩)

end Acados.Mem
