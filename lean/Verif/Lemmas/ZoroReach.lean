import Verif.Lemmas.ZoroAll
/-! Invariants of a sequence of updates. -/
namespace Acados.Zoro
open Matrix
set_option linter.unusedSectionVars false
variable {K : Type*} [Field K] [LinearOrder K] {d : Dims}

section
variable (ds : Desc K d) (str : Bool) (data : List K) (m : Mem K d)

theorem readData_P0 : (readData ds str data m).P 0
    = if str && (ds.inP0diag || ds.inP0) then resetP0 ds data (m.P 0) else m.P 0 := by
  unfold readData
  cases str <;> cases ds.inP0diag <;> cases ds.inP0 <;> cases ds.inWdiag <;> cases ds.inWadd <;> cases ds.sensP <;>
    cases ds.inSdiag <;> cases ds.inS <;> simp

theorem readData_W : (readData ds str data m).W = if str && ds.inWdiag then setDiag (offW ds) data m.W else m.W := by
  unfold readData
  cases str <;> cases ds.inP0diag <;> cases ds.inP0 <;> cases ds.inWdiag <;> cases ds.inWadd <;> cases ds.sensP <;>
    cases ds.inSdiag <;> cases ds.inS <;> rfl

theorem readData_Sigma : (readData ds str data m).Sigma
    = if str && (ds.sensP && (ds.inSdiag || ds.inS)) then resetS ds data m.Sigma else m.Sigma := by
  unfold readData
  cases str <;> cases ds.inP0diag <;> cases ds.inP0 <;> cases ds.inWdiag <;> cases ds.inWadd <;> cases ds.sensP <;>
    cases ds.inSdiag <;> cases ds.inS <;> rfl

theorem readData_GWG : (readData ds str data m).GWG
    = if str && (ds.inWdiag && !ds.inWadd) then gwg ds.G (readData ds str data m).W else m.GWG := by
  unfold readData
  cases str <;> cases ds.inP0diag <;> cases ds.inP0 <;> cases ds.inWdiag <;> cases ds.inWadd <;> cases ds.sensP <;>
    cases ds.inSdiag <;> cases ds.inS <;> rfl

/-- what reading the payload leaves alone -/
structure RSame (m m' : Mem K d) : Prop where
  idxbu : m'.idxbu = m.idxbu
  idxbx : m'.idxbx = m.idxbx
  idxbxe : m'.idxbxe = m.idxbxe
  Cg : m'.Cg = m.Cg
  Dg : m'.Dg = m.Dg
  lo : m'.lo = m.lo
  hi : m'.hi = m.hi
  loE : m'.loE = m.loE
  hiE : m'.hiE = m.hiE
  loT : m'.loT = m.loT
  hiT : m'.hiT = m.hiT
  loTE : m'.loTE = m.loTE
  hiTE : m'.hiTE = m.hiTE
  Wst : m'.Wst = m.Wst

theorem readData_same : RSame m (readData ds str data m) := by
  unfold readData
  cases str <;> cases ds.inP0diag <;> cases ds.inP0 <;> cases ds.inWdiag <;> cases ds.inWadd <;> cases ds.sensP <;>
    cases ds.inSdiag <;> cases ds.inS <;> exact ⟨rfl, rfl, rfl, rfl, rfl, rfl, rfl, rfl, rfl, rfl, rfl, rfl, rfl, rfl⟩

theorem readData_Woff {i j : Fin d.nw} (h : i ≠ j) : (readData ds str data m).W i j = m.W i j := by
  rw [readData_W]; split
  · rw [setDiag_eq, newDiag_off _ _ h]
  · rfl

end

/-- holds for every memory that updates lead to -/
structure RInv (ds : Desc K d) (n0 : Nlp K d) (m : Mem K d) : Prop where
  idxbu : m.idxbu = n0.idxbu
  idxbx : m.idxbx = n0.idxbx
  idxbxe : m.idxbxe = n0.idxbxe
  Cg : m.Cg = n0.Cg
  Dg : m.Dg = n0.Dg
  lo : m.lo = n0.lo 1
  hi : m.hi = n0.hi 1
  loE : m.loE = n0.loE
  hiE : m.hiE = n0.hiE
  loT : ∀ r ∉ ds.loT, m.loT r = n0.lo 1 r
  hiT : ∀ r ∉ ds.hiT, m.hiT r = n0.hi 1 r
  loTE : ∀ r ∉ ds.loTE, m.loTE r = n0.loE r
  hiTE : ∀ r ∉ ds.hiTE, m.hiTE r = n0.hiE r
  Woff : ∀ i j, i ≠ j → m.W i j = ds.W i j
  Wst : (∀ i j, i ≠ j → ds.W i j = 0) → ∀ i j, i ≠ j → m.Wst i j = 0
  gwg : ds.inWdiag = false → ds.inWadd = false → m.GWG = ds.G * m.W * ds.Gᵀ

theorem init_inv (ds : Desc K d) (n0 : Nlp K d) (b : K) : RInv ds n0 (init ds n0 b) := by
  refine ⟨rfl, rfl, rfl, rfl, rfl, rfl, rfl, rfl, rfl, fun _ _ => rfl, fun _ _ => rfl, fun _ _ => rfl, fun _ _ => rfl,
    fun _ _ _ => rfl, fun _ _ _ _ => rfl, fun h _ => ?_⟩
  show (if ds.inWdiag then (0 : Mat K d.nx d.nx) else Acados.Zoro.gwg ds.G ds.W) = _
  rw [if_neg (by rw [h]; decide)]; rfl

theorem read_inv {ds : Desc K d} {n0 : Nlp K d} {m : Mem K d} (h : RInv ds n0 m) (str : Bool) (data : List K) :
    RInv ds n0 (readData ds str data m) := by
  have s := readData_same ds str data m
  refine ⟨s.idxbu.trans h.idxbu, s.idxbx.trans h.idxbx, s.idxbxe.trans h.idxbxe, s.Cg.trans h.Cg, s.Dg.trans h.Dg,
    s.lo.trans h.lo, s.hi.trans h.hi, s.loE.trans h.loE, s.hiE.trans h.hiE,
    fun r hr => by rw [s.loT]; exact h.loT r hr, fun r hr => by rw [s.hiT]; exact h.hiT r hr,
    fun r hr => by rw [s.loTE]; exact h.loTE r hr, fun r hr => by rw [s.hiTE]; exact h.hiTE r hr,
    fun i j hij => by rw [readData_Woff ds str data m hij]; exact h.Woff i j hij,
    fun h0 => by rw [s.Wst]; exact h.Wst h0, fun h1 h2 => ?_⟩
  rw [readData_GWG, readData_W, h1]
  simp only [Bool.false_and, Bool.and_false, Bool.false_eq_true, if_false]
  exact h.gwg h1 h2

theorem fr_inv {ds : Desc K d} {n0 : Nlp K d} {m m' : Mem K d} (h : RInv ds n0 m) (f : Fr ds m m') : RInv ds n0 m' := by
  have s := f.same
  refine ⟨s.idxbu.trans h.idxbu, s.idxbx.trans h.idxbx, s.idxbxe.trans h.idxbxe, s.Cg.trans h.Cg, s.Dg.trans h.Dg,
    s.lo.trans h.lo, s.hi.trans h.hi, s.loE.trans h.loE, s.hiE.trans h.hiE,
    fun r hr => (f.loT r hr).trans (h.loT r hr), fun r hr => (f.hiT r hr).trans (h.hiT r hr),
    fun r hr => (f.loTE r hr).trans (h.loTE r hr), fun r hr => (f.hiTE r hr).trans (h.hiTE r hr),
    fun i j hij => by rw [s.W]; exact h.Woff i j hij, fun h0 => ?_, fun h1 h2 => ?_⟩
  · exact f.wst (fun i j hij => (h.Woff i j hij).trans (h0 i j hij)) (h.Wst h0)
  · rw [f.gwg h2, s.W]; exact h.gwg h1 h2

theorem ok_out {sq : K → K} {ds : Desc K d} {l : Lin K d} {gain : Nat → Mat K d.nu d.nx} {data : List K}
    {m m' : Mem K d} {n n' : Nlp K d} {out : Nat → K} (h : updateWith sq ds l gain data m n = .ok m' n' out) :
    ∃ str, streaming ds data = some str ∧ terminalUb ds = false
      ∧ m' = (propagateAll sq ds l gain data (readData ds str data m, n)).1
      ∧ n' = (propagateAll sq ds l gain data (readData ds str data m, n)).2
      ∧ out = (if str && ds.outP then unpackP d.nx (d.N + 1) (offP ds) m'.P fun i => data.getD i 0
          else fun i => data.getD i 0) := by
  unfold updateWith at h
  cases hs : streaming ds data with
  | none => rw [hs] at h; exact absurd h (by simp)
  | some str =>
    rw [hs] at h
    dsimp only at h
    split at h
    · exact absurd h (by simp)
    · split at h
      · exact absurd h (by simp)
      · rename_i hub
        simp only [Out.ok.injEq] at h
        obtain ⟨h1, h2, h3⟩ := h
        exact ⟨str, rfl, by simpa using hub, h1.symm, h2.symm, by rw [← h3, ← h1]⟩

theorem reach_inv {sq : K → K} {ds : Desc K d} {n0 : Nlp K d} {m : Mem K d} (h : Reach sq ds n0 m) : RInv ds n0 m := by
  induction h with
  | init b => exact init_inv ds n0 b
  | step _ hu ih =>
    obtain ⟨str, -, -, h1, -, -⟩ := ok_out hu
    rw [h1]
    exact fr_inv (read_inv ih str _) (all_fr _ ds _ _ _ (_, _))

theorem noise_inv {ds : Desc K d} {n0 : Nlp K d} {m : Mem K d} (h : RInv ds n0 m) (str : Bool) (data : List K)
    (hw : (ds.inWadd = true ∧ ∀ i j, i ≠ j → ds.W i j = 0) ∨
      (ds.inWadd = false ∧ (ds.inWdiag = false ∨ str = true))) :
    NoiseInv ds (readData ds str data m) := by
  have h' := read_inv h str data
  refine ⟨fun ha i j hij => ?_, fun ha => ?_⟩
  · rcases hw with ⟨-, hw⟩ | ⟨hw, -⟩
    · exact ⟨h'.Wst hw i j hij, (h'.Woff i j hij).trans (hw i j hij)⟩
    · exact absurd ha (by rw [hw]; decide)
  · rcases hw with ⟨hw, -⟩ | ⟨-, hw⟩
    · exact absurd ha (by rw [hw]; decide)
    · cases hd : ds.inWdiag with
      | false => exact h'.gwg hd ha
      | true =>
        rw [hd] at hw
        have hs : str = true := by simpa using hw
        rw [readData_GWG, hd, ha, hs]; rfl

end Acados.Zoro
