import Verif.Model.MemSim
import Verif.Lemmas.MemAuto
import Verif.Props.MemModules
/-!
# C02 for external functions, integrators and dynamics modules

Each theorem: a buffer of the calculated size, at any 8-byte aligned address, suffices for the
matching assign (cast) function, whatever the dimensions and options.  Hypotheses `8 ∣ …` concern
`sizeof` of C structs with pointer or double members, and sizes of sub-objects.
-/
namespace Acados.Mem

theorem C02_ext_param_generic (np : Nat) : Fits (extParamGenericOps np) (extParamGenericSize np) := by
  apply fits_of
  · unfold extParamGenericOps; mem_al
  · unfold extParamGenericOps extParamGenericSize; mem_need

theorem C02_casadi (c : CasadiD) (w : Bool) : Fits (casadiOps c w) (casadiSize c w) := by
  unfold casadiOps casadiSize
  cases w <;> apply fits_of <;> first | (mem_al; done) | mem_need

theorem C02_casadi_ext_param (c : CasadiD) (idxP : Nat) (idxG : Option Nat) (w : Bool) :
    Fits (casadiExtParamOps c idxP idxG w) (casadiExtParamSize c idxP idxG w) := by
  unfold casadiExtParamOps casadiExtParamSize
  cases w <;> apply fits_of
  · mem_al
  · mem_need
  · mem_al
  · mem_need

theorem C02_sim_in (sz model nx nu : Nat) (h : 8 ∣ sz) (hm : 8 ∣ model) :
    Fits (simInOps sz model nx nu) (simInSize sz model nx nu) := by
  apply fits_of
  · unfold simInOps; mem_al
  · unfold simInOps simInSize; mem_need

theorem C02_sim_out (sz szInfo nx nu nz : Nat) (h : 8 ∣ sz) (hi : 8 ∣ szInfo) :
    Fits (simOutOps sz szInfo nx nu nz) (simOutSize sz szInfo nx nu nz) := by
  apply fits_of
  · unfold simOutOps; mem_al
  · unfold simOutOps simOutSize; mem_need

theorem C02_erk_opts (sz m : Nat) (h : 8 ∣ sz) : Fits (erkOptsOps sz m) (erkOptsSize sz m) := by
  apply fits_of
  · unfold erkOptsOps; mem_al
  · unfold erkOptsOps erkOptsSize; mem_need

theorem C02_erk_memory (sz : Nat) (h : 8 ∣ sz) (d : ErkD) (o : ErkO) :
    Fits (erkMemoryOps sz d o) (erkMemorySize sz d o) := by
  unfold erkMemoryOps erkMemorySize
  cases o.sensForwP <;> apply fits_of <;> first | (mem_al; done) | mem_need

theorem C02_erk_workspace (sz : Nat) (h : 8 ∣ sz) (d : ErkD) (o : ErkO) :
    Fits (erkWorkspaceOps sz d o) (erkWorkspaceSize sz d o) := by
  unfold erkWorkspaceOps erkWorkspaceSize
  generalize erkNX d o = nX
  generalize o.nhess = nh
  rw [Nat.mul_comm o.ns o.steps]
  cases o.sensAdj <;> cases o.sensHess <;>
    simp only [Bool.or_true, Bool.or_false, Bool.false_eq_true, if_true, if_false] <;>
    apply fits_of <;> first | (mem_al; done) | mem_need

theorem C02_irk_opts (sz m w : Nat) (h : 8 ∣ sz) (hw : 8 ∣ w) :
    Fits (irkOptsOps sz m w) (irkOptsSize sz m w) := by
  apply fits_of
  · unfold irkOptsOps; mem_al
  · unfold irkOptsOps irkOptsSize; mem_need

theorem C02_gnsf_opts (sz m w : Nat) (h : 8 ∣ sz) :
    Fits (gnsfOptsOps sz m w) (irkOptsSize sz m w) := by
  apply fits_of
  · unfold gnsfOptsOps; mem_al
  · unfold gnsfOptsOps irkOptsSize; mem_need

theorem C02_irk_memory (B : Blasfeo) (sz sm : Nat) (h : 8 ∣ sz) (hm : 8 ∣ sm) (d : IrkD) :
    Fits (irkMemoryOps B sz sm d) (irkMemorySize B sz sm d) := by
  unfold irkMemoryOps irkMemorySize
  cases d.cost <;> cases d.sensForwP <;> apply fits_of <;> first | (mem_al; done) | mem_need

theorem C02_irk_workspace (B : Blasfeo) (sz sm sv : Nat) (h : 8 ∣ sz) (hm : 8 ∣ sm) (hv : 8 ∣ sv)
    (d : IrkD) : Fits (irkWorkspaceOps B sz sm sv d) (irkWorkspaceSize B sz sm sv d) := by
  apply fits_of
  · unfold irkWorkspaceOps
    mem_norm
    iterate 2 mem_step
    refine al_ite (k := 8) (fun t ht => ?_) (fun t ht => ?_) ?_
    · mem_norm; iterate 2 mem_step
      exact ht
    · exact ht
    iterate 4 mem_step
    refine al_ite (k := 8) (fun t ht => ?_) (fun t ht => ?_) ?_
    · mem_norm; iterate 4 mem_step
      exact ht
    · mem_norm; iterate 4 mem_step
      exact ht
    refine al_ite (k := 8) (fun t ht => ?_) (fun t ht => ?_) ?_
    · mem_norm; iterate 2 mem_step
      exact ht
    · exact ht
    iterate 2 mem_step
    refine al_ite (k := 8) (fun t ht => ?_) (fun t ht => ?_) ?_
    · mem_norm; iterate 4 mem_step
      refine al_ite (k := 8) (fun t ht => ?_) (fun t ht => ?_) ?_
      · mem_norm; iterate 3 mem_step
        exact ht
      · exact ht
      iterate 2 mem_step
      exact ht
    · exact ht
    mem_step
    refine al_ite (k := 64) (fun t ht => ?_) (fun t ht => ?_) ?_
    · mem_norm; iterate 4 mem_step
      refine al_ite (k := 64) (fun t ht => ?_) (fun t ht => ?_) ?_
      · mem_norm; iterate 3 mem_step
        exact ht
      · exact ht
      exact ht
    · exact ht
    refine al_ite (k := 64) (fun t ht => ?_) (fun t ht => ?_) ?_
    · mem_norm; iterate 4 mem_step
      exact ht
    · mem_norm
      refine al_loop_dmat4 (by decide) ?_
      iterate 5 mem_step
      exact ht
    refine al_ite (k := 64) (fun t ht => ?_) (fun t ht => ?_) ?_
    · mem_norm; iterate 2 mem_step
      exact ht
    · exact ht
    iterate 4 mem_step
    refine al_ite (k := 64) (fun t ht => ?_) (fun t ht => ?_) ?_
    · mem_norm; iterate 2 mem_step
      exact ht
    · exact ht
    refine al_ite (k := 8) (fun t ht => ?_) (fun t ht => ht.mono (by decide)) ?_
    · mem_norm; iterate 2 mem_step
      exact ht
    iterate 7 mem_step
    refine al_ite (k := 8) (fun t ht => ?_) (fun t ht => ht) ?_
    · exact al_loop_dvec2 (by decide) ht
    refine al_ite (k := 4) (fun t ht => ?_) (fun t ht => ht.mono (by decide)) ?_
    · mem_norm; iterate 2 mem_step
      exact ht
    cases d.sensHess <;> mem_al
  · unfold irkWorkspaceOps irkWorkspaceSize
    generalize d.nK = nK
    refine Nat.le_trans ?_ (Nat.add_le_add_right (le_makeIntMultipleOf _ _) _)
    simp only [need_append, need_nil, need_align, need_struct, need_ptrs, need_ints,
     need_doubles, need_dvec, need_dmat, need_loop, need_ite, ite_ind,
     Finset.sum_add_distrib, sum_const_range, Nat.add_zero, Nat.zero_add, Nat.mul_zero,
     Nat.reduceSub, Nat.mul_add, Nat.add_mul, Nat.mul_one, Nat.one_mul]
    linarith

theorem C02_lifted_memory (B : Blasfeo) (sz sm sv : Nat) (h : 8 ∣ sz) (hm : 8 ∣ sm) (hv : 8 ∣ sv)
    (d : LiftedD) : Fits (liftedMemoryOps B sz sm sv d) (liftedMemorySize B sz sm sv d) := by
  apply fits_of
  · unfold liftedMemoryOps; mem_al
  · unfold liftedMemoryOps liftedMemorySize; mem_need

theorem C02_lifted_workspace (B : Blasfeo) (sz sm sv : Nat) (h : 8 ∣ sz) (hm : 8 ∣ sm) (hv : 8 ∣ sv)
    (d : LiftedD) : Fits (liftedWorkspaceOps B sz sm sv d) (liftedWorkspaceSize B sz sm sv d) := by
  apply fits_of
  · unfold liftedWorkspaceOps; mem_al
  · unfold liftedWorkspaceOps liftedWorkspaceSize; mem_need

theorem C02_gnsf_model (sz : Nat) (h : 8 ∣ sz) (d : GnsfD) :
    Fits (gnsfModelOps sz d) (gnsfModelSize sz d) := by
  apply fits_of
  · unfold gnsfModelOps; mem_al
  · unfold gnsfModelOps gnsfModelSize
    rw [show d.ny * (2 * d.nx1 + d.nz1) = d.ny * d.nx1 + d.ny * d.nx1 + d.ny * d.nz1 by
      rw [Nat.mul_add, Nat.two_mul, Nat.mul_add]]
    mem_need

theorem C02_gnsf_memory (B : Blasfeo) (sz sm : Nat) (h : 8 ∣ sz) (d : GnsfD) :
    Fits (gnsfMemoryOps B sz d) (gnsfMemorySize B sz sm d) := by
  unfold gnsfMemorySize
  cases d.sensAlg <;> apply fits_of
  · unfold gnsfMemoryOps; mem_al
  · unfold gnsfMemoryOps; mem_need
  · unfold gnsfMemoryOps; mem_al
  · unfold gnsfMemoryOps; mem_need

theorem C02_gnsf_pre_workspace (B : Blasfeo) (sz szPre sm sv : Nat) (h : 8 ∣ szPre) (d : GnsfD) :
    Fits (gnsfPreOps B szPre d) (gnsfWorkspaceSize B sz szPre sm sv d) := by
  apply fits_of
  · unfold gnsfPreOps; mem_al
  · refine Nat.le_trans (m := gnsfPreSize B szPre d) ?_ (by unfold gnsfWorkspaceSize; split <;> omega)
    have h1 := le_makeIntMultipleOf 8 szPre
    have h2 := le_makeIntMultipleOf 64 (makeIntMultipleOf 8 szPre + 8 + 4 * (2 * d.nZ1 + d.nK1))
    unfold gnsfPreOps gnsfPreSize
    generalize makeIntMultipleOf 64 (makeIntMultipleOf 8 szPre + 8 + 4 * (2 * d.nZ1 + d.nK1)) = q
      at h2 ⊢
    generalize makeIntMultipleOf 8 szPre = q' at h1 h2
    generalize d.nK1 = nK1 at h2 ⊢
    generalize d.nZ1 = nZ1 at h2 ⊢
    generalize d.nvv = nvv
    generalize d.nyy = nyy
    mem_need

theorem C02_gnsf_workspace (B : Blasfeo) (sz szPre sm sv : Nat) (h : 8 ∣ sz) (hm : 8 ∣ sm)
    (hv : 8 ∣ sv) (d : GnsfD) :
    Fits (gnsfRunOps B sz sm sv d) (gnsfWorkspaceSize B sz szPre sm sv d) := by
  apply fits_of
  · unfold gnsfRunOps; mem_al
  · refine Nat.le_trans (m := gnsfRunSize B sz sm sv d) ?_ (by unfold gnsfWorkspaceSize; split <;> omega)
    have h1 := le_makeIntMultipleOf 8 sz
    have h2 := le_makeIntMultipleOf 8
      (makeIntMultipleOf 8 sz + 8 + 8 * d.ns + 2 * (sv * d.steps) + sm * d.steps + 4 * d.nvv)
    unfold gnsfRunOps gnsfRunSize
    rw [Nat.mul_comm (d.steps + 1) d.nx]
    generalize makeIntMultipleOf 8
      (makeIntMultipleOf 8 sz + 8 + 8 * d.ns + 2 * (sv * d.steps) + sm * d.steps + 4 * d.nvv) = q at h2 ⊢
    have h3 := le_makeIntMultipleOf 64 (q + 8
        + d.steps * B.dvec d.nvv + d.steps * B.dvec d.nyy + B.dvec d.nZ1 + 2 * B.dvec d.nK1
        + B.dvec d.nK2 + B.dvec d.nK2 + B.dvec (d.nx * (d.steps + 1)) + B.dvec d.nvv + B.dvec d.nu
        + B.dvec (d.nx + d.nu) + B.dvec (d.nx + d.nu) + B.dvec d.nyy + B.dvec (d.nyy * d.steps)
        + B.dvec d.nK1 + B.dvec d.nZ1 + 2 * B.dvec d.nxz2 + B.dvec d.nuhat + B.dvec d.nz)
    generalize d.nx * (d.steps + 1) = e at h3 ⊢
    generalize d.nyy * d.steps = e' at h3 ⊢
    generalize makeIntMultipleOf 64 _ = q2 at h3 ⊢
    generalize makeIntMultipleOf 8 sz = q' at h1 h2
    generalize d.nK1 = nK1 at h2 h3 ⊢
    generalize d.nK2 = nK2 at h2 h3 ⊢
    generalize d.nZ1 = nZ1 at h2 h3 ⊢
    generalize d.nvv = nvv at h2 h3 ⊢
    generalize d.nyy = nyy at h2 h3 ⊢
    generalize d.nxz2 = nxz2 at h2 h3 ⊢
    generalize d.nx = nx at h2 h3 ⊢
    generalize d.nz = nz at h2 h3 ⊢
    mem_need

theorem C02_dyn_cont_dims (sz sub : Nat) (h : 8 ∣ sz) :
    Fits (dynContDimsOps sz sub) (dynContDimsSize sz sub) := by
  apply fits_of
  · unfold dynContDimsOps; mem_al
  · unfold dynContDimsOps dynContDimsSize; mem_need

theorem C02_dyn_cont_opts (sz sub : Nat) (h : 8 ∣ sz) :
    Fits (dynContOptsOps sz sub) (dynContOptsSize sz sub) := by
  apply fits_of
  · unfold dynContOptsOps; mem_al
  · unfold dynContOptsOps dynContOptsSize; mem_need

theorem C02_dyn_cont_memory (B : Blasfeo) (sz sub nx nu nx1 : Nat) (h : 8 ∣ sz) (hs : 8 ∣ sub) :
    Fits (dynContMemoryOps B sz sub nx nu nx1) (dynContMemorySize B sz sub nx nu nx1) := by
  apply fits_of
  · unfold dynContMemoryOps; mem_al
  · unfold dynContMemoryOps dynContMemorySize; mem_need

theorem C02_dyn_cont_workspace (B : Blasfeo) (sz szIn model so sw nx nu : Nat) (h : 8 ∣ sz)
    (hi : 8 ∣ szIn) (hmo : 8 ∣ model) (ho : 8 ∣ so) (hw : 8 ∣ sw) :
    Fits (dynContWorkspaceOps B sz szIn model so sw nx nu)
      (dynContWorkspaceSize B sz (simInSize szIn model nx nu) so sw nx nu) := by
  apply fits_of
  · unfold dynContWorkspaceOps simInOps; mem_al
  · have h1 := le_makeIntMultipleOf 8
      (szIn + 8 * nx + 8 * nu + 8 * (nx * (nx + nu)) + 8 * (nx + nu) + model)
    unfold dynContWorkspaceOps dynContWorkspaceSize simInOps simInSize
    generalize makeIntMultipleOf 8
      (szIn + 8 * nx + 8 * nu + 8 * (nx * (nx + nu)) + 8 * (nx + nu) + model) = q at h1 ⊢
    generalize nx * (nx + nu) = e at h1 ⊢
    mem_need

theorem C02_dyn_cont_model (sz sub : Nat) (h : 8 ∣ sz) :
    Fits (dynContModelOps sz sub) (dynContModelSize sz sub) := by
  apply fits_of
  · unfold dynContModelOps; mem_al
  · unfold dynContModelOps dynContModelSize; mem_need

theorem C02_dyn_disc_memory (B : Blasfeo) (sz nx nu nx1 : Nat) (h : 8 ∣ sz) :
    Fits (dynDiscMemoryOps B sz nx nu nx1) (dynDiscMemorySize B sz nx nu nx1) := by
  apply fits_of
  · unfold dynDiscMemoryOps; mem_al
  · unfold dynDiscMemoryOps dynDiscMemorySize; mem_need

theorem C02_dyn_disc_workspace (B : Blasfeo) (sz nx nu np : Nat) (adj : Bool) (h : 8 ∣ sz) :
    Fits (dynDiscWorkspaceOps B sz nx nu np adj) (dynDiscWorkspaceSize B sz nx nu np adj) := by
  unfold dynDiscWorkspaceOps dynDiscWorkspaceSize
  cases adj <;> apply fits_of <;> first | (mem_al; done) | mem_need

/-! ## Options changed between creation and evaluation

The dynamics module computes the workspace size once, with the options set at creation, and calls the
integrator with temporarily changed sensitivity options. -/

theorem erkNX_funOnly_le (d : ErkD) (o : ErkO) : erkNX d o.funOnly ≤ erkNX d o := by
  unfold erkNX
  apply Nat.mul_le_mul_left
  have : o.funOnly.nf ≤ o.nf := by
    unfold ErkO.nf ErkO.funOnly
    cases o.sensForw <;> cases o.sensForwP <;> simp
  have e : o.funOnly.sensForwP = o.sensForwP := rfl
  rw [e]
  omega

/-- Evaluating only the integration result (ERK) fits into the workspace of every option set. -/
theorem C02_erk_fun_only (sz : Nat) (h : 8 ∣ sz) (d : ErkD) (o : ErkO) (hs : 1 ≤ o.steps) :
    Fits (erkWorkspaceOps sz d o.funOnly) (erkWorkspaceSize sz d o) := by
  have hX := erkNX_funOnly_le d o
  have hw := C02_erk_workspace sz h d o.funOnly
  apply fits_of
  · unfold erkWorkspaceOps
    generalize erkNX d o.funOnly = nX
    change AlOK 8 ([Op.struct sz, Op.align 8, Op.rawDoubles (nX + d.nu)]
      ++ [Op.rawDoubles (o.ns * nX), Op.rawDoubles nX] ++ [])
    mem_al
  · unfold erkWorkspaceOps erkWorkspaceSize
    generalize erkNX d o.funOnly = nX' at hX ⊢
    generalize erkNX d o = nX at hX ⊢
    change need ([Op.struct sz, Op.align 8, Op.rawDoubles (nX' + d.nu)]
      ++ [Op.rawDoubles (o.ns * nX'), Op.rawDoubles nX'] ++ []) ≤ _
    refine Nat.le_trans ?_ (Nat.add_le_add_right (le_makeIntMultipleOf _ _) _)
    have h1 : o.ns * nX' ≤ o.ns * nX := Nat.mul_le_mul_left _ hX
    have h2 : o.ns * nX ≤ o.steps * o.ns * nX := by
      rw [Nat.mul_assoc]; exact Nat.le_mul_of_pos_left _ hs
    have h3 : nX ≤ (o.steps + 1) * nX := Nat.le_mul_of_pos_left _ (by omega)
    simp only [need_append, need_nil, need_align, need_struct, need_rawDoubles, Nat.add_zero,
      Nat.reduceSub]
    generalize (if o.sensHess then _ else _ : Nat) = r
    split <;> omega

/-- C02 is false of the ERK workspace when the dynamics module asks for the adjoint
(`compute_fun_and_adj`): created with forward sensitivities only, one state, ten steps, the arrays
used by the adjoint sweep reach behind the workspace. -/
theorem C02_erk_adjoint_false :
    ¬ (∀ (sz : Nat) (d : ErkD) (o : ErkO), 8 ∣ sz → 1 ≤ o.steps →
        Fits (erkWorkspaceOps sz d o.adjointOnly) (erkWorkspaceSize sz d o)) := by
  intro H
  obtain ⟨rs, q, hr, hq, _⟩ :=
    H 64 ⟨1, 0, 0⟩ ⟨4, 10, 1, true, false, false, false⟩ (by decide) (by decide) 0 (by decide)
  have e : run (erkWorkspaceOps 64 ⟨1, 0, 0⟩
      (ErkO.adjointOnly ⟨4, 10, 1, true, false, false, false⟩)) 0
      = some ([⟨0, 64, 8⟩, ⟨64, 8, 8⟩, ⟨72, 320, 8⟩, ⟨392, 88, 8⟩, ⟨480, 16, 8⟩, ⟨496, 8, 8⟩,
        ⟨504, 32, 8⟩], 536) := by decide
  rw [e] at hr
  have hq2 : q = 536 := (Prod.mk.inj (Option.some.inj hr)).2.symm
  have hs : erkWorkspaceSize 64 ⟨1, 0, 0⟩ ⟨4, 10, 1, true, false, false, false⟩ = 168 := by decide
  omega

/-- The adjoint evaluation (ERK) fits when the workspace was created for adjoints or Hessians. -/
theorem C02_erk_adjoint_partial (sz : Nat) (h : 8 ∣ sz) (d : ErkD) (o : ErkO)
    (ha : o.sensAdj = true ∨ o.sensHess = true) :
    Fits (erkWorkspaceOps sz d o.adjointOnly) (erkWorkspaceSize sz d o) := by
  have hX : erkNX d o.adjointOnly ≤ erkNX d o := erkNX_funOnly_le d o
  apply fits_of
  · unfold erkWorkspaceOps
    generalize erkNX d o.adjointOnly = nX
    change AlOK 8 ([Op.struct sz, Op.align 8, Op.rawDoubles (nX + d.nu)]
      ++ [Op.rawDoubles (o.ns * o.steps * nX), Op.rawDoubles ((o.steps + 1) * nX)]
      ++ [Op.rawDoubles (2 * d.nx + d.nu), Op.rawDoubles (d.nu + d.nx),
          Op.rawDoubles (o.ns * (d.nu + d.nx))])
    mem_al
  · unfold erkWorkspaceOps erkWorkspaceSize
    have hX2 : d.nx ≤ erkNX d o := by
      unfold erkNX
      exact Nat.le_mul_of_pos_right _ (by omega)
    generalize erkNX d o.adjointOnly = nX' at hX ⊢
    generalize erkNX d o = nX at hX hX2 ⊢
    change need ([Op.struct sz, Op.align 8, Op.rawDoubles (nX' + d.nu)]
      ++ [Op.rawDoubles (o.ns * o.steps * nX'), Op.rawDoubles ((o.steps + 1) * nX')]
      ++ [Op.rawDoubles (2 * d.nx + d.nu), Op.rawDoubles (d.nu + d.nx),
          Op.rawDoubles (o.ns * (d.nu + d.nx))]) ≤ _
    refine Nat.le_trans ?_ (Nat.add_le_add_right (le_makeIntMultipleOf _ _) _)
    have h1 : o.ns * o.steps * nX' ≤ o.steps * o.ns * nX := by
      rw [Nat.mul_comm o.ns]; exact Nat.mul_le_mul_left _ hX
    have h3 : (o.steps + 1) * nX' ≤ (o.steps + 1) * nX := Nat.mul_le_mul_left _ hX
    have h4 : o.ns * (d.nu + d.nx) ≤ o.ns * (d.nx + d.nu + o.nhess) :=
      Nat.mul_le_mul_left _ (by omega)
    have h5 : o.ns * (d.nu + d.nx) = o.ns * (d.nx + d.nu) := by rw [Nat.add_comm d.nu]
    have hc : (o.sensAdj || o.sensHess) = true := by
      rcases ha with ha | ha <;> simp [ha]
    simp only [need_append, need_nil, need_align, need_struct, need_rawDoubles, Nat.add_zero,
      Nat.reduceSub, hc, if_true]
    cases hh : o.sensHess
    · have : o.sensAdj = true := by simpa [hh] using ha
      simp only [this, if_true, if_false, Bool.false_eq_true]
      omega
    · simp only [if_true]
      omega

theorem Fits.mono {ops : List Op} {s s' : Nat} (h : Fits ops s) (hs : s ≤ s') : Fits ops s' := by
  intro base hb
  obtain ⟨rs, q, hr, hq, ha, hp⟩ := h base hb
  refine ⟨rs, q, hr, by omega, fun r hm => ?_, hp⟩
  have := ha r hm
  exact ⟨this.1, by omega, this.2.2⟩

theorem makeIntMultipleOf_mono (num : Nat) {a b : Nat} (h : a ≤ b) :
    makeIntMultipleOf num a ≤ makeIntMultipleOf num b := by
  unfold makeIntMultipleOf
  split
  · exact Nat.mul_le_mul_right _ (Nat.div_le_div_right (by omega))
  · exact h

/-- Evaluating only the integration result (IRK) fits into the workspace of every option set. -/
theorem C02_irk_fun_only (B : Blasfeo) (sz sm sv : Nat) (h : 8 ∣ sz) (hm : 8 ∣ sm) (hv : 8 ∣ sv) (d : IrkD)
    (hs : 1 ≤ d.steps) :
    Fits (irkWorkspaceOps B sz sm sv d.funOnly) (irkWorkspaceSize B sz sm sv d) := by
  refine (C02_irk_workspace B sz sm sv h hm hv d.funOnly).mono ?_
  unfold irkWorkspaceSize
  refine Nat.add_le_add_right (makeIntMultipleOf_mono _ ?_) _
  have e : d.funOnly.nK = d.nK := rfl
  rw [e]
  generalize d.nK = nK
  have hpos : ∀ x, x ≤ d.steps * x := fun x => Nat.le_mul_of_pos_left _ hs
  have hpos' : ∀ x, x ≤ x * d.steps := fun x => Nat.le_mul_of_pos_right _ hs
  have hpos1 : ∀ x, x ≤ (d.steps + 1) * x := fun x => Nat.le_mul_of_pos_left _ (by omega)
  have hg : ∀ (c : Bool) (x : Nat), (if (false || false : Bool) then x else 0) ≤ if c then x else 0 :=
    fun c x => Nat.zero_le _
  refine Nat.add_le_add_right (Nat.add_le_add_right (Nat.add_le_add_right (Nat.add_le_add_right
    (Nat.add_le_add_right (Nat.add_le_add (Nat.add_le_add_right (Nat.add_le_add ?_ ?_) _) (hg _ _)) _) _) _) _) _
  · refine Nat.add_le_add_right (Nat.add_le_add_right (Nat.add_le_add_right (Nat.add_le_add_right
      (Nat.add_le_add_right (Nat.add_le_add_right (Nat.add_le_add_right (Nat.add_le_add_right
      (Nat.add_le_add (Nat.add_le_add_right (Nat.add_le_add_left (hg _ _) _) _) ?_) _) _) _) _) _) _) _) _
    cases d.sensHess
    · exact Nat.le_refl _
    · exact Nat.le_trans (Nat.mul_le_mul_left 4 (hpos' sm)) (Nat.le_add_right _ _)
  · cases d.sensHess
    · exact Nat.le_refl _
    · exact Nat.le_trans (Nat.add_le_add (Nat.add_le_add (Nat.add_le_add (Nat.add_le_add (hpos _) (hpos _))
        (hpos _)) (hpos1 _)) (Nat.mul_le_mul_left 4 (hpos nK)))
        (Nat.le_trans (Nat.le_add_right _ _) (Nat.le_trans (Nat.le_add_right _ _) (Nat.le_add_right _ _)))

/-- C02 is false of the IRK workspace when the adjoint is asked for: created without adjoint
sensitivities, one state and two steps are enough.  (The assert in `sim_irk_workspace_cast` compares
with the size for the changed options and does not notice.) -/
theorem C02_irk_adjoint_false :
    ¬ (∀ (B : Blasfeo) (sz sm sv : Nat) (d : IrkD), 8 ∣ sz → 8 ∣ sm → 8 ∣ sv → 1 ≤ d.steps →
        Fits (irkWorkspaceOps B sz sm sv d.adjointOnly) (irkWorkspaceSize B sz sm sv d)) := by
  intro H
  have hs : irkWorkspaceSize (panelBlasfeo 4 4) 400 48 32
      ⟨1, 1, 0, 0, 0, 1, 2, false, false, false, false, false, false, false, false⟩ = 3136 := by
    decide
  obtain ⟨rs, q, hr, hq, _⟩ :=
    H (panelBlasfeo 4 4) 400 48 32
      ⟨1, 1, 0, 0, 0, 1, 2, false, false, false, false, false, false, false, false⟩
      (by decide) (by decide) (by decide) (by decide) 0 (by decide)
  have e : (run (irkWorkspaceOps (panelBlasfeo 4 4) 400 48 32 (IrkD.adjointOnly
      ⟨1, 1, 0, 0, 0, 1, 2, false, false, false, false, false, false, false, false⟩)) 0).map Prod.snd
      = some 3460 := by decide
  rw [hr] at e
  have hq2 : q = 3460 := Option.some.inj e
  omega

/-! Concrete instances -/
example : Fits (erkWorkspaceOps 64 ⟨4, 1, 0⟩ ⟨4, 3, 5, true, false, true, true⟩)
    (erkWorkspaceSize 64 ⟨4, 1, 0⟩ ⟨4, 3, 5, true, false, true, true⟩) :=
  C02_erk_workspace _ (by decide) _ _
example : Fits (casadiOps ⟨4, 3, 11, 20, fun i => i + 1, fun i => 2 * i⟩ false)
    (casadiSize ⟨4, 3, 11, 20, fun i => i + 1, fun i => 2 * i⟩ false) := C02_casadi _ _
example : 8 ∣ butcherWorkSize 9 800 := by decide

end Acados.Mem
