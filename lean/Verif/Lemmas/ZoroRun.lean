import Verif.Lemmas.Zoro
/-! Invariants of the loop over the stages and of a sequence of updates. -/
namespace Acados.Zoro
open Matrix
set_option linter.unusedSectionVars false
variable {K : Type*} [Field K] [LinearOrder K] {d : Dims}

/-- fields no part of the loop writes -/
structure Same (m m' : Mem K d) : Prop where
  W : m'.W = m.W
  Sigma : m'.Sigma = m.Sigma
  idxbu : m'.idxbu = m.idxbu
  idxbx : m'.idxbx = m.idxbx
  idxbxe : m'.idxbxe = m.idxbxe
  Cg : m'.Cg = m.Cg
  Dg : m'.Dg = m.Dg
  Cge : m'.Cge = m.Cge
  lo : m'.lo = m.lo
  hi : m'.hi = m.hi
  loE : m'.loE = m.loE
  hiE : m'.hiE = m.hiE

theorem Same.refl (m : Mem K d) : Same m m := ⟨rfl, rfl, rfl, rfl, rfl, rfl, rfl, rfl, rfl, rfl, rfl, rfl⟩

theorem Same.trans {a b c : Mem K d} (h : Same a b) (h' : Same b c) : Same a c :=
  ⟨h'.W.trans h.W, h'.Sigma.trans h.Sigma, h'.idxbu.trans h.idxbu, h'.idxbx.trans h.idxbx,
    h'.idxbxe.trans h.idxbxe, h'.Cg.trans h.Cg, h'.Dg.trans h.Dg, h'.Cge.trans h.Cge, h'.lo.trans h.lo,
    h'.hi.trans h.hi, h'.loE.trans h.loE, h'.hiE.trans h.hiE⟩

/-- the noise term the next step adds is the one of the specification -/
def NoiseInv (ds : Desc K d) (m : Mem K d) : Prop :=
  (ds.inWadd = true → ∀ i j, i ≠ j → m.Wst i j = 0 ∧ m.W i j = 0) ∧
  (ds.inWadd = false → m.GWG = ds.G * m.W * ds.Gᵀ)

def stage (ds : Desc K d) (data : List K) (ii : Nat) (m : Mem K d) : Mem K d :=
  if ds.inWadd then gwgStage ds data ii m else m

theorem stage_same (ds : Desc K d) (data : List K) (ii : Nat) (m : Mem K d) : Same m (stage ds data ii m) := by
  unfold stage; split
  · exact ⟨rfl, rfl, rfl, rfl, rfl, rfl, rfl, rfl, rfl, rfl, rfl, rfl⟩
  · exact Same.refl m

theorem stage_frame (ds : Desc K d) (data : List K) (ii : Nat) (m : Mem K d) :
    (stage ds data ii m).P = m.P ∧ (stage ds data ii m).Pw = m.Pw ∧ (stage ds data ii m).Pi = m.Pi
    ∧ (stage ds data ii m).loT = m.loT ∧ (stage ds data ii m).hiT = m.hiT
    ∧ (stage ds data ii m).loTE = m.loTE ∧ (stage ds data ii m).hiTE = m.hiTE := by
  unfold stage; split
  · exact ⟨rfl, rfl, rfl, rfl, rfl, rfl, rfl⟩
  · exact ⟨rfl, rfl, rfl, rfl, rfl, rfl, rfl⟩

theorem stage_noise (ds : Desc K d) (data : List K) (ii : Nat) (m : Mem K d) (h : NoiseInv ds m) :
    NoiseInv ds (stage ds data ii m) ∧
    (stage ds data ii m).GWG = ds.G * noiseAt ds m.W data ii * ds.Gᵀ := by
  unfold stage
  by_cases ha : ds.inWadd = true
  · rw [if_pos ha]
    have h1 := h.1 ha
    refine ⟨⟨fun _ i j hij => ⟨?_, (h1 i j hij).2⟩, fun hf => absurd ha (by rw [hf]; decide)⟩, ?_⟩
    · show (if i = j then _ else m.Wst i j) + m.W i j = 0
      rw [if_neg hij, (h1 i j hij).1, (h1 i j hij).2, add_zero]
    · show gwg ds.G _ = _
      unfold gwg noiseAt
      rw [if_pos ha]
      congr 2
      ext i j
      show (if i = j then data.getD (offWadd ds + (d.nw * ii + i)) 0 else m.Wst i j) + m.W i j
        = m.W i j + diagonal _ i j
      rw [diagonal_apply]
      by_cases hij : i = j
      · rw [if_pos hij, if_pos hij, add_comm]
      · rw [if_neg hij, if_neg hij, (h1 i j hij).1, (h1 i j hij).2]
  · have ha : ds.inWadd = false := by simpa using ha
    rw [if_neg (by rw [ha]; decide)]
    refine ⟨h, ?_⟩
    rw [h.2 ha]; unfold noiseAt; rw [if_neg (by rw [ha]; decide)]

theorem nextP_eq (P A : Mat K d.nx d.nx) (B : Mat K d.nx d.nu) (Kk : Mat K d.nu d.nx) (Wm : Mat K d.nx d.nx) :
    nextP P A B Kk Wm = (A - B * Kk) * P * (A - B * Kk)ᵀ + Wm := by
  have : -(B * Kk) + A = A - B * Kk := by rw [sub_eq_add_neg, add_comm]
  unfold nextP; simp only [this]

section
variable (ds : Desc K d) (l : Lin K d) (gain : Nat → Mat K d.nu d.nx) (data : List K)

theorem propagate_same (ii : Nat) (m : Mem K d) : Same m (propagate ds l gain data ii m) := by
  have hs := stage_same ds data ii m
  unfold propagate
  change Same m (match modeOf ds with | .none => _ | .noise => _ | .constant => _)
  cases modeOf ds with
  | none => exact ⟨hs.1, hs.2, hs.3, hs.4, hs.5, hs.6, hs.7, hs.8, hs.9, hs.10, hs.11, hs.12⟩
  | noise => exact ⟨hs.1, hs.2, hs.3, hs.4, hs.5, hs.6, hs.7, hs.8, hs.9, hs.10, hs.11, hs.12⟩
  | constant => exact ⟨hs.1, hs.2, hs.3, hs.4, hs.5, hs.6, hs.7, hs.8, hs.9, hs.10, hs.11, hs.12⟩

theorem propagate_frame (ii : Nat) (m : Mem K d) :
    (propagate ds l gain data ii m).loT = m.loT ∧ (propagate ds l gain data ii m).hiT = m.hiT
    ∧ (propagate ds l gain data ii m).loTE = m.loTE ∧ (propagate ds l gain data ii m).hiTE = m.hiTE := by
  have hs := (stage_frame ds data ii m).2.2.2
  unfold propagate
  change _ ∧ _ ∧ _ ∧ _
  cases modeOf ds with
  | none => exact hs
  | noise => exact hs
  | constant => exact hs

theorem propagate_noise (ii : Nat) (m : Mem K d) (h : NoiseInv ds m) :
    NoiseInv ds (propagate ds l gain data ii m) := by
  have hs := (stage_noise ds data ii m h).1
  unfold propagate
  cases modeOf ds with
  | none => exact hs
  | noise => exact hs
  | constant => exact hs

theorem propagate_none (ii : Nat) (m : Mem K d) (hm : modeOf ds = .none) : propagate ds l gain data ii m
    = { stage ds data ii m with P := Function.update (stage ds data ii m).P (ii + 1) (nextP ((stage ds data ii m).P ii) (l.A ii) (l.B ii) (gain ii) (stage ds data ii m).GWG) } := by
  unfold propagate stage; rw [hm]

theorem propagate_noiseMode (ii : Nat) (m : Mem K d) (hm : modeOf ds = .noise) : propagate ds l gain data ii m
    = { stage ds data ii m with P := Function.update (stage ds data ii m).P (ii + 1) (nextP ((stage ds data ii m).P ii) (l.A ii) (l.B ii) (gain ii) (additive (stage ds data ii m).GWG (l.Sp ii) (stage ds data ii m).Sigma)) } := by
  unfold propagate stage; rw [hm]

theorem propagate_constant (ii : Nat) (m : Mem K d) (hm : modeOf ds = .constant) : propagate ds l gain data ii m
    = { stage ds data ii m with P := Function.update (stage ds data ii m).P (ii + 1) (nextP (stage ds data ii m).Pw (l.A ii) (l.B ii) (gain ii) (stage ds data ii m).GWG + (nextPi (-(l.B ii * gain ii) + l.A ii) (stage ds data ii m).Pi (l.Sp ii) * (stage ds data ii m).Sigma) * (nextPi (-(l.B ii * gain ii) + l.A ii) (stage ds data ii m).Pi (l.Sp ii))ᵀ), Pw := nextP (stage ds data ii m).Pw (l.A ii) (l.B ii) (gain ii) (stage ds data ii m).GWG, Pi := nextPi (-(l.B ii * gain ii) + l.A ii) (stage ds data ii m).Pi (l.Sp ii) } := by
  unfold propagate stage; rw [hm]

/-- the uncertainty matrices up to stage `i` are those of the specification -/
structure PInv (W : Mat K d.nw d.nw) (Sigma : Mat K d.np d.np) (P0 : Mat K d.nx d.nx) (i : Nat) (m : Mem K d) :
    Prop where
  P : ∀ k ≤ i, m.P k = cov (modeOf ds) l gain ds.G (noiseAt ds W data) Sigma P0 k
  Pw : modeOf ds = .constant → m.Pw = covS l gain ds.G (noiseAt ds W data) 0 P0 i
  Pi : modeOf ds = .constant → m.Pi = parS l gain i

theorem propagate_P (W Sigma P0) (ii : Nat) (m : Mem K d) (hn : NoiseInv ds m) (hW : m.W = W)
    (hS : m.Sigma = Sigma) (h : PInv ds l gain data W Sigma P0 ii m) :
    PInv ds l gain data W Sigma P0 (ii + 1) (propagate ds l gain data ii m) := by
  obtain ⟨fP, fPw, fPi, -⟩ := stage_frame ds data ii m
  obtain ⟨-, hG⟩ := stage_noise ds data ii m hn
  have hss := stage_same ds data ii m
  rw [hW] at hG
  obtain ⟨h1, h2, h3⟩ := h
  have hP : ∀ k ≤ ii, m.P k = cov (modeOf ds) l gain ds.G (noiseAt ds W data) Sigma P0 k := h1
  have upd : ∀ v : Mat K d.nx d.nx, v = cov (modeOf ds) l gain ds.G (noiseAt ds W data) Sigma P0 (ii + 1) →
      ∀ k ≤ ii + 1, Function.update m.P (ii + 1) v k
        = cov (modeOf ds) l gain ds.G (noiseAt ds W data) Sigma P0 k := by
    intro v hv k hk
    by_cases hki : k = ii + 1
    · rw [hki, Function.update_self, hv]
    · rw [Function.update_of_ne hki]; exact hP k (by omega)
  have hAK : -(l.B ii * gain ii) + l.A ii = clA l gain ii := by unfold clA; rw [sub_eq_add_neg, add_comm]
  have hPi := hP ii le_rfl
  cases hm : modeOf ds with
  | none =>
    rw [propagate_none ds l gain data ii m hm, fP, hG]
    refine ⟨upd _ ?_, fun h => absurd (hm.symm.trans h) (by decide), fun h => absurd (hm.symm.trans h) (by decide)⟩
    rw [nextP_eq, hPi, hm]
    simp only [cov, covS, Matrix.mul_zero, Matrix.zero_mul, add_zero]; rfl
  | noise =>
    rw [propagate_noiseMode ds l gain data ii m hm, fP, hG, hss.Sigma, hS]
    refine ⟨upd _ ?_, fun h => absurd (hm.symm.trans h) (by decide), fun h => absurd (hm.symm.trans h) (by decide)⟩
    rw [nextP_eq, hPi, hm]
    simp only [cov, covS, additive]
    rw [add_comm (l.Sp ii * Sigma * (l.Sp ii)ᵀ), ← add_assoc]; rfl
  | constant =>
    rw [propagate_constant ds l gain data ii m hm, fP, fPw, fPi, hG, hss.Sigma, hS, hAK]
    have e1 : nextP m.Pw (l.A ii) (l.B ii) (gain ii) (ds.G * noiseAt ds W data ii * ds.Gᵀ)
        = covS l gain ds.G (noiseAt ds W data) 0 P0 (ii + 1) := by
      rw [nextP_eq, h2 hm]
      simp only [covS, Matrix.mul_zero, Matrix.zero_mul, add_zero]; rfl
    have e2 : nextPi (clA l gain ii) m.Pi (l.Sp ii) = parS l gain (ii + 1) := by
      rw [h3 hm]; rfl
    refine ⟨upd _ ?_, fun _ => e1, fun _ => e2⟩
    rw [e1, e2, hm]; rfl

end
end Acados.Zoro
