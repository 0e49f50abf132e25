import Verif.Model.MemModules
import Verif.Lemmas.MemAuto
/-!
# C02 for the cost and constraint modules

Each theorem: a buffer of the calculated size, at any 8-byte aligned address, suffices for the
matching assign function, whatever the dimensions and options.  The hypothesis `8 ∣ sz` says that
the struct's `sizeof` is a multiple of the alignment of its pointers and doubles (true of every
C ABI with 8-byte pointers).
-/
namespace Acados.Mem

variable (B : Blasfeo) (sz : Nat)

theorem C02_bgh_model (h : 8 ∣ sz) (d : BghD) : Fits (bghModelOps B sz d) (bghModelSize B sz d) := by
  apply fits_of
  · unfold bghModelOps; mem_al
  · unfold bghModelOps bghModelSize; mem_need

theorem C02_bgh_memory (h : 8 ∣ sz) (d : BghD) :
    Fits (bghMemoryOps B sz d) (bghMemorySize B sz d) := by
  apply fits_of
  · unfold bghMemoryOps; mem_al
  · unfold bghMemoryOps bghMemorySize; mem_need

theorem C02_bgh_workspace (h : 8 ∣ sz) (d : BghD) (forw adj : Bool) :
    Fits (bghWorkspaceOps B sz d forw adj) (bghWorkspaceSize B sz d forw adj) := by
  unfold bghWorkspaceOps bghWorkspaceSize
  by_cases hz : d.nz > 0 <;> by_cases hh : d.nh > 0 <;> cases forw <;> cases adj <;>
    simp only [hz, hh] <;> apply fits_of <;> first | (mem_al; done) | mem_need

theorem C02_bgp_model (h : 8 ∣ sz) (d : BgpD) : Fits (bgpModelOps B sz d) (bgpModelSize B sz d) := by
  apply fits_of
  · unfold bgpModelOps; mem_al
  · unfold bgpModelOps bgpModelSize; mem_need

theorem C02_bgp_memory (h : 8 ∣ sz) (d : BgpD) :
    Fits (bgpMemoryOps B sz d) (bgpMemorySize B sz d) := by
  apply fits_of
  · unfold bgpMemoryOps; mem_al
  · unfold bgpMemoryOps bgpMemorySize; mem_need

theorem C02_bgp_workspace (h : 8 ∣ sz) (d : BgpD) :
    Fits (bgpWorkspaceOps B sz d) (bgpWorkspaceSize B sz d) := by
  apply fits_of
  · unfold bgpWorkspaceOps; mem_al
  · unfold bgpWorkspaceOps bgpWorkspaceSize
    rw [Nat.add_comm d.nx d.nu]
    mem_need

/-! ## Cost modules -/

/-- C02 for the model of the linear least-squares cost.  Partial: the size function counts the
matrix `Vz` as `nz × ny` while the assign function creates it as `ny × nz`; the hypothesis says
that the latter needs no more memory than the former.  `C02_ls_model_false` shows that the
hypothesis is needed. -/
theorem C02_ls_model_partial (h : 8 ∣ sz) (d : CostD) (hV : B.dmat d.ny d.nz ≤ B.dmat d.nz d.ny) :
    Fits (lsModelOps B sz d) (lsModelSize B sz d) := by
  apply fits_of
  · unfold lsModelOps; mem_al
  · unfold lsModelOps lsModelSize; mem_need

theorem C02_ls_memory (h : 8 ∣ sz) (d : CostD) : Fits (lsMemoryOps B sz d) (lsMemorySize B sz d) := by
  apply fits_of
  · unfold lsMemoryOps; mem_al
  · unfold lsMemoryOps lsMemorySize; mem_need

theorem C02_ls_workspace (h : 8 ∣ sz) (d : CostD) : Fits (lsWorkspaceOps B sz d) (lsWorkspaceSize B sz d) := by
  apply fits_of
  · unfold lsWorkspaceOps; mem_al
  · unfold lsWorkspaceOps lsWorkspaceSize; mem_need

theorem C02_nls_model (h : 8 ∣ sz) (d : CostD) : Fits (nlsModelOps B sz d) (nlsModelSize B sz d) := by
  apply fits_of
  · unfold nlsModelOps; mem_al
  · unfold nlsModelOps nlsModelSize; mem_need

theorem C02_nls_memory (h : 8 ∣ sz) (d : CostD) : Fits (nlsMemoryOps B sz d) (nlsMemorySize B sz d) := by
  apply fits_of
  · unfold nlsMemoryOps; mem_al
  · unfold nlsMemoryOps nlsMemorySize; mem_need

theorem C02_nls_workspace (h : 8 ∣ sz) (d : CostD) : Fits (nlsWorkspaceOps B sz d) (nlsWorkspaceSize B sz d) := by
  apply fits_of
  · unfold nlsWorkspaceOps; mem_al
  · unfold nlsWorkspaceOps nlsWorkspaceSize; mem_need

theorem C02_ext_model (h : 8 ∣ sz) (d : CostD) : Fits (extModelOps B sz d) (extModelSize B sz d) := by
  apply fits_of
  · unfold extModelOps; mem_al
  · unfold extModelOps extModelSize; mem_need

theorem C02_ext_memory (h : 8 ∣ sz) (d : CostD) : Fits (extMemoryOps B sz d) (extMemorySize B sz d) := by
  apply fits_of
  · unfold extMemoryOps; mem_al
  · unfold extMemoryOps extMemorySize; mem_need

theorem C02_conl_model (h : 8 ∣ sz) (d : CostD) : Fits (conlModelOps B sz d) (conlModelSize B sz d) := by
  apply fits_of
  · unfold conlModelOps; mem_al
  · unfold conlModelOps conlModelSize; mem_need

theorem C02_conl_memory (h : 8 ∣ sz) (d : CostD) : Fits (conlMemoryOps B sz d) (conlMemorySize B sz d) := by
  apply fits_of
  · unfold conlMemoryOps; mem_al
  · unfold conlMemoryOps conlMemorySize; mem_need

theorem C02_conl_workspace (h : 8 ∣ sz) (d : CostD) : Fits (conlWorkspaceOps B sz d) (conlWorkspaceSize B sz d) := by
  apply fits_of
  · unfold conlWorkspaceOps; mem_al
  · unfold conlWorkspaceOps conlWorkspaceSize; mem_need

theorem C02_ext_workspace (h : 8 ∣ sz) (d : CostD) (forw adj : Bool) :
    Fits (extWorkspaceOps B sz d forw adj) (extWorkspaceSize B sz d forw adj) := by
  unfold extWorkspaceOps extWorkspaceSize
  cases forw <;> cases adj <;> apply fits_of <;> first | (mem_al; done) | mem_need

/-- the panel-major sizes of BLASFEO for panels of `ps` rows and columns in groups of `pld`
(blasfeo_memsize_dmat: padded matrix plus the stored inverse diagonal, rounded to 64 bytes). -/
def panelBlasfeo (ps pld : Nat) : Blasfeo where
  dmat m n :=
    makeIntMultipleOf 64 (8 * (makeIntMultipleOf ps m * makeIntMultipleOf pld n
      + makeIntMultipleOf (ps * pld) (min m n)))
  dvec n := makeIntMultipleOf 64 (8 * makeIntMultipleOf ps n)
  dmat64 m n := by
    unfold makeIntMultipleOf; rw [if_pos (by decide)]; exact Nat.dvd_mul_left 64 _
  dvec8 n := by
    unfold makeIntMultipleOf; rw [if_pos (by decide)]
    exact Nat.dvd_trans (by decide) (Nat.dvd_mul_left 64 _)

/-- C02 is false of the linear least-squares model: with 8-row panels and columns in groups of four,
one output and nine algebraic variables, the assign function hands out a matrix that ends behind the
calculated size. -/
theorem C02_ls_model_false :
    ¬ (∀ (B : Blasfeo) (sz : Nat) (d : CostD), 8 ∣ sz → Fits (lsModelOps B sz d) (lsModelSize B sz d)) := by
  intro H
  obtain ⟨rs, q, hr, hq, _⟩ :=
    H (panelBlasfeo 8 4) 200 ⟨2, 1, 9, 1, 0, 0⟩ (by decide) 0 (by decide)
  have e : run (lsModelOps (panelBlasfeo 8 4) 200 ⟨2, 1, 9, 1, 0, 0⟩) 0
      = some ([⟨0, 200, 8⟩, ⟨256, 512, 64⟩, ⟨768, 512, 64⟩, ⟨1280, 1024, 64⟩, ⟨2304, 64, 8⟩,
        ⟨2368, 0, 8⟩, ⟨2368, 0, 8⟩], 2368) := by decide
  rw [e] at hr
  have hq2 : q = 2368 := by
    have := Option.some.inj hr
    exact (Prod.mk.inj this).2.symm
  have hs : lsModelSize (panelBlasfeo 8 4) 200 ⟨2, 1, 9, 1, 0, 0⟩ = 2120 := by decide
  omega

/-! The hypotheses of the theorems above hold for concrete problems. -/
example : (panelBlasfeo 4 4).dmat 3 2 ≤ (panelBlasfeo 4 4).dmat 2 3 := by decide
example : Fits (lsModelOps (panelBlasfeo 4 4) 200 ⟨4, 1, 2, 3, 1, 0⟩)
    (lsModelSize (panelBlasfeo 4 4) 200 ⟨4, 1, 2, 3, 1, 0⟩) :=
  C02_ls_model_partial _ _ (by decide) _ (by decide)
example : Fits (bghWorkspaceOps (panelBlasfeo 4 4) 128 ⟨4, 1, 2, 3, 1, 2, 1, 0, 0, 0, 0, 5⟩ true true)
    (bghWorkspaceSize (panelBlasfeo 4 4) 128 ⟨4, 1, 2, 3, 1, 2, 1, 0, 0, 0, 0, 5⟩ true true) :=
  C02_bgh_workspace _ _ (by decide) _ _ _

end Acados.Mem
