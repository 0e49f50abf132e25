import Verif.Lemmas.ZoroRun
/-! The loop over the stages of the zero-order robust optimisation update. -/
namespace Acados.Zoro
open Matrix
set_option linter.unusedSectionVars false
variable {K : Type*} [Field K] [LinearOrder K] {d : Dims}

theorem hasKind_mem {rows : List (Row d)} {r : Row d} (h : r ∈ rows) : hasKind rows r.kind = true :=
  List.any_eq_true.mpr ⟨r, h, by simp⟩

theorem hasKindE_mem {rows : List (RowE d)} {r : RowE d} (h : r ∈ rows) : hasKindE rows r.kind = true :=
  List.any_eq_true.mpr ⟨r, h, by simp⟩

/-- the change of a row under the error `e` and the input `-K e` is the product with this vector -/
def dir (n : Nlp K d) (l : Lin K d) (Kk : Mat K d.nu d.nx) (k : Nat) : Row d → Fin d.nx → K
  | .bu i => -(Kk (n.idxbu i))
  | .bx i => Pi.single (n.idxbx i) 1
  | .g i => (n.Cg - n.Dg * Kk) i
  | .h i => (l.Ch k - l.Dh k * Kk) i

def dirE (n : Nlp K d) (l : Lin K d) : RowE d → Fin d.nx → K
  | .bx i => Pi.single (n.idxbxe i) 1
  | .g i => n.Cge i
  | .h i => l.Ce (Fin.natAdd d.nge i)

theorem sub_mul_row {m : Nat} (C : Mat K m d.nx) (D : Mat K m d.nu) (Kk : Mat K d.nu d.nx) (i : Fin m)
    (e : Fin d.nx → K) : (C - D * Kk) i ⬝ᵥ e = C i ⬝ᵥ e + D i ⬝ᵥ (-(Kk *ᵥ e)) := by
  have h1 : (C - D * Kk) i ⬝ᵥ e = ((C - D * Kk) *ᵥ e) i := rfl
  rw [h1, sub_mulVec, Pi.sub_apply, ← mulVec_mulVec, sub_eq_add_neg, dotProduct_neg]; rfl

theorem rowAt_dir (n : Nlp K d) (l : Lin K d) (Kk : Mat K d.nu d.nx) (k : Nat) (v : K) (e : Fin d.nx → K)
    (r : Row d) : rowAt n l k v e (-(Kk *ᵥ e)) r = v + dir n l Kk k r ⬝ᵥ e := by
  cases r with
  | bu i => simp only [rowAt, dir, neg_dotProduct]; rfl
  | bx i => simp only [rowAt, dir, single_one_dotProduct]
  | g i => simp only [rowAt, dir, sub_mul_row]; rw [add_assoc]
  | h i => simp only [rowAt, dir, sub_mul_row]; rw [add_assoc]; rfl

theorem rowAtE_dir (n : Nlp K d) (l : Lin K d) (v : K) (e : Fin d.nx → K) (r : RowE d) :
    rowAtE n l v e r = v + dirE n l r ⬝ᵥ e := by
  cases r with
  | bx i => simp only [rowAtE, dirE, single_one_dotProduct]
  | g i => rfl
  | h i => rfl

theorem ghBeta_quad {m : Nat} (Kk : Mat K d.nu d.nx) (C : Mat K m d.nx) (D : Mat K m d.nu) (P : Mat K d.nx d.nx)
    (i : Fin m) : ghBeta Kk C D P i = quad P ((C - D * Kk) i) := by
  have : -(D * Kk) + C = C - D * Kk := by rw [sub_eq_add_neg, add_comm]
  unfold ghBeta; simp only [this]; exact diag_quad _ _ _

theorem rowSq_quad (ds : Desc K d) (m : Mem K d) (n : Nlp K d) (l : Lin K d) (Kk : Mat K d.nu d.nx) (k : Nat)
    (r : Row d) (h1 : m.idxbu = n.idxbu) (h2 : m.idxbx = n.idxbx) (h3 : m.Cg = n.Cg) (h4 : m.Dg = n.Dg) :
    rowSq ds m l Kk k r = ds.gamma * ds.gamma * quad (m.P k) (dir n l Kk k r) := by
  cases r with
  | bu i => simp only [rowSq, dir, quad_neg, kpk, diag_quad, h1]
  | bx i => simp only [rowSq, dir, ← entry_quad, h2]
  | g i => simp only [rowSq, dir, ghBeta_quad, h3, h4]
  | h i => simp only [rowSq, dir, ghBeta_quad]

section
variable (sq : K → K) (ds : Desc K d) (l : Lin K d)

/-- squared back-off from the variance of the row -/
def bval (n : Nlp K d) (Kk : Mat K d.nu d.nx) (P : Mat K d.nx d.nx) (k : Nat) (r : Row d) : K :=
  if ds.barrier then ds.gamma * ds.gamma * quad P (dir n l Kk k r) + ds.eps
  else ds.gamma * ds.gamma * quad P (dir n l Kk k r)

theorem tighten_spec (Kk : Mat K d.nu d.nx) (ks : Kind → Bool) (k : Nat) (m : Mem K d) (n n0 : Nlp K d)
    (h1 : m.idxbu = n0.idxbu) (h2 : m.idxbx = n0.idxbx) (h3 : m.Cg = n0.Cg) (h4 : m.Dg = n0.Dg) :
    (∀ r, (tighten sq ds l Kk ks k (m, n)).2.lo k r =
      if ks r.kind && hasKind ds.loT r.kind then
        if r ∈ ds.loT then m.lo r + sq (bval ds l n0 Kk (m.P k) k r) else m.loT r
      else n.lo k r) ∧
    (∀ r, (tighten sq ds l Kk ks k (m, n)).2.hi k r =
      if ks r.kind && hasKind ds.hiT r.kind then
        if r ∈ ds.hiT then m.hi r - sq (bval ds l n0 Kk (m.P k) k r) else m.hiT r
      else n.hi k r) := by
  have hb : ∀ r, ks r.kind = true → (hasKind ds.loT r.kind || hasKind ds.hiT r.kind) = true →
      (if ks r.kind && (hasKind ds.loT r.kind || hasKind ds.hiT r.kind) then
        if ds.barrier then rowSq ds m l Kk k r + ds.eps else rowSq ds m l Kk k r
      else m.bsq k r) = bval ds l n0 Kk (m.P k) k r := by
    intro r hk hh
    rw [if_pos (by rw [hk, hh]; rfl), rowSq_quad ds m n0 l Kk k r h1 h2 h3 h4]; rfl
  refine ⟨fun r => ?_, fun r => ?_⟩
  · simp only [tighten, Function.update_self]
    by_cases hk : ks r.kind = true
    · by_cases hr : r ∈ ds.loT
      · rw [hb r hk (by rw [hasKind_mem hr]; rfl)]
        simp [hk, hr, hasKind_mem hr]
      · simp [hk, hr]
    · simp [hk]
  · simp only [tighten, Function.update_self]
    by_cases hk : ks r.kind = true
    · by_cases hr : r ∈ ds.hiT
      · rw [hb r hk (by rw [hasKind_mem hr, Bool.or_true])]
        simp [hk, hr, hasKind_mem hr]
      · simp [hk, hr]
    · simp [hk]

theorem tighten_other (Kk : Mat K d.nu d.nx) (ks : Kind → Bool) (k k' : Nat) (hk : k' ≠ k) (s : Mem K d × Nlp K d) :
    (tighten sq ds l Kk ks k s).2.lo k' = s.2.lo k' ∧ (tighten sq ds l Kk ks k s).2.hi k' = s.2.hi k' := by
  simp only [tighten, Function.update_of_ne hk, and_self]

theorem tighten_mem (Kk : Mat K d.nu d.nx) (ks : Kind → Bool) (k : Nat) (s : Mem K d × Nlp K d) :
    (∀ r ∉ ds.loT, (tighten sq ds l Kk ks k s).1.loT r = s.1.loT r) ∧
    (∀ r ∉ ds.hiT, (tighten sq ds l Kk ks k s).1.hiT r = s.1.hiT r) := by
  refine ⟨fun r hr => ?_, fun r hr => ?_⟩ <;> simp [tighten, hr]

/-- what the NLP bounds of a stage become -/
def newLo (n0 nb : Nlp K d) (m0 : Mem K d) (Kk : Mat K d.nu d.nx) (P : Mat K d.nx d.nx) (k : Nat) (r : Row d) : K :=
  if (k = 0 → r.kind = .bu) ∧ hasKind ds.loT r.kind = true then
    if r ∈ ds.loT then m0.lo r + sq (bval ds l n0 Kk P k r) else m0.loT r
  else nb.lo k r

def newHi (n0 nb : Nlp K d) (m0 : Mem K d) (Kk : Mat K d.nu d.nx) (P : Mat K d.nx d.nx) (k : Nat) (r : Row d) : K :=
  if (k = 0 → r.kind = .bu) ∧ hasKind ds.hiT r.kind = true then
    if r ∈ ds.hiT then m0.hi r - sq (bval ds l n0 Kk P k r) else m0.hiT r
  else nb.hi k r

/-- fields of the NLP that are never written -/
structure NSame (n n' : Nlp K d) : Prop where
  idxbu : n'.idxbu = n.idxbu
  idxbx : n'.idxbx = n.idxbx
  idxbxe : n'.idxbxe = n.idxbxe
  Cg : n'.Cg = n.Cg
  Dg : n'.Dg = n.Dg
  Cge : n'.Cge = n.Cge

variable (gain : Nat → Mat K d.nu d.nx) (data : List K) (n0 nb : Nlp K d) (m0 : Mem K d)

/-- the matrices the stages are meant to have -/
def covAt (k : Nat) : Mat K d.nx d.nx :=
  cov (modeOf ds) l gain ds.G (noiseAt ds m0.W data) m0.Sigma (m0.P 0) k

structure LInv (i : Nat) (s : Mem K d × Nlp K d) : Prop where
  same : Same m0 s.1
  noise : NoiseInv ds s.1
  p : PInv ds l gain data m0.W m0.Sigma (m0.P 0) i s.1
  loT : ∀ r ∉ ds.loT, s.1.loT r = m0.loT r
  hiT : ∀ r ∉ ds.hiT, s.1.hiT r = m0.hiT r
  te : s.1.loTE = m0.loTE ∧ s.1.hiTE = m0.hiTE
  nlo : ∀ k ≤ i, ∀ r, s.2.lo k r = newLo sq ds l n0 nb m0 (gain k) (covAt ds l gain data m0 k) k r
  nhi : ∀ k ≤ i, ∀ r, s.2.hi k r = newHi sq ds l n0 nb m0 (gain k) (covAt ds l gain data m0 k) k r
  rest : ∀ k, i < k → s.2.lo k = nb.lo k ∧ s.2.hi k = nb.hi k
  ne : s.2.loE = nb.loE ∧ s.2.hiE = nb.hiE
  ns : NSame nb s.2

theorem tighten_same (Kk : Mat K d.nu d.nx) (ks : Kind → Bool) (k : Nat) (s : Mem K d × Nlp K d) :
    Same s.1 (tighten sq ds l Kk ks k s).1 := ⟨rfl, rfl, rfl, rfl, rfl, rfl, rfl, rfl, rfl, rfl, rfl, rfl⟩

variable (h1 : m0.idxbu = n0.idxbu) (h2 : m0.idxbx = n0.idxbx) (h3 : m0.Cg = n0.Cg) (h4 : m0.Dg = n0.Dg)
include h1 h2 h3 h4

theorem first_inv (hN : NoiseInv ds m0) (hP : PInv ds l gain data m0.W m0.Sigma (m0.P 0) 0 m0) :
    LInv sq ds l gain data n0 nb m0 0
      (tighten sq ds l (gain 0) (fun k => decide (k = .bu)) 0 (m0, nb)) := by
  obtain ⟨ta, tb⟩ := tighten_spec sq ds l (gain 0) (fun k => decide (k = .bu)) 0 m0 nb n0 h1 h2 h3 h4
  obtain ⟨tc, td⟩ := tighten_mem sq ds l (gain 0) (fun k => decide (k = .bu)) 0 (m0, nb)
  have hc : m0.P 0 = covAt ds l gain data m0 0 := hP.P 0 le_rfl
  refine ⟨⟨rfl, rfl, rfl, rfl, rfl, rfl, rfl, rfl, rfl, rfl, rfl, rfl⟩, hN, ⟨hP.P, hP.Pw, hP.Pi⟩, tc, td, ⟨rfl, rfl⟩,
    fun k hk r => ?_, fun k hk r => ?_, fun k hk => tighten_other sq ds l _ _ 0 k (by omega) _, ⟨rfl, rfl⟩,
    ⟨rfl, rfl, rfl, rfl, rfl, rfl⟩⟩
  · obtain rfl : k = 0 := by omega
    rw [ta r, ← hc]
    unfold newLo
    by_cases hb : r.kind = .bu
    · simp [hb]
    · rw [if_neg (by simp [hb]), if_neg (by simp [hb])]
  · obtain rfl : k = 0 := by omega
    rw [tb r, ← hc]
    unfold newHi
    by_cases hb : r.kind = .bu
    · simp [hb]
    · rw [if_neg (by simp [hb]), if_neg (by simp [hb])]

theorem step_inv (i : Nat) (s : Mem K d × Nlp K d) (h : LInv sq ds l gain data n0 nb m0 i s) :
    LInv sq ds l gain data n0 nb m0 (i + 1) (stageStep sq ds l gain data s i) := by
  have hs := h.same.trans (propagate_same ds l gain data i s.1)
  obtain ⟨fa, fb, fc, fd⟩ := propagate_frame ds l gain data i s.1
  have hp := propagate_P ds l gain data m0.W m0.Sigma (m0.P 0) i s.1 h.noise h.same.W h.same.Sigma h.p
  have hn := propagate_noise ds l gain data i s.1 h.noise
  have g1 := hs.idxbu.trans h1
  have g2 := hs.idxbx.trans h2
  have g3 := hs.Cg.trans h3
  have g4 := hs.Dg.trans h4
  generalize hm : propagate ds l gain data i s.1 = m at *
  have e : stageStep sq ds l gain data s i
      = tighten sq ds l (gain (i + 1)) (fun _ => true) (i + 1) (m, s.2) := by rw [← hm]; rfl
  rw [e]
  obtain ⟨ta, tb⟩ := tighten_spec sq ds l (gain (i + 1)) (fun _ => true) (i + 1) m s.2 n0 g1 g2 g3 g4
  obtain ⟨tc, td⟩ := tighten_mem sq ds l (gain (i + 1)) (fun _ => true) (i + 1) (m, s.2)
  have hc : m.P (i + 1) = covAt ds l gain data m0 (i + 1) := hp.P (i + 1) le_rfl
  refine ⟨hs.trans (tighten_same sq ds l _ _ _ (m, s.2)), hn, ⟨hp.P, hp.Pw, hp.Pi⟩,
    fun r hr => (tc r hr).trans ((congrFun fa r).trans (h.loT r hr)),
    fun r hr => (td r hr).trans ((congrFun fb r).trans (h.hiT r hr)),
    ⟨fc.trans h.te.1, fd.trans h.te.2⟩, fun k hk r => ?_, fun k hk r => ?_, fun k hk => ?_, h.ne, ?_⟩
  · by_cases hki : k = i + 1
    · subst hki
      rw [ta r, ← hc]
      unfold newLo
      have hr := (h.rest (i + 1) (by omega)).1
      by_cases hb : hasKind ds.loT r.kind = true
      · rw [if_pos (show (true && hasKind ds.loT r.kind) = true by rw [hb]; rfl),
          if_pos (show (i + 1 = 0 → r.kind = .bu) ∧ hasKind ds.loT r.kind = true from ⟨fun h => by omega, hb⟩), hs.lo]
        by_cases hrl : r ∈ ds.loT
        · rw [if_pos hrl, if_pos hrl]
        · rw [if_neg hrl, if_neg hrl, congrFun fa r]; exact h.loT r hrl
      · rw [if_neg (by simp [hb]), if_neg (by simp [hb]), hr]
    · rw [(tighten_other sq ds l _ _ (i + 1) k hki _).1]
      exact h.nlo k (by omega) r
  · by_cases hki : k = i + 1
    · subst hki
      rw [tb r, ← hc]
      unfold newHi
      have hr := (h.rest (i + 1) (by omega)).2
      by_cases hb : hasKind ds.hiT r.kind = true
      · rw [if_pos (show (true && hasKind ds.hiT r.kind) = true by rw [hb]; rfl),
          if_pos (show (i + 1 = 0 → r.kind = .bu) ∧ hasKind ds.hiT r.kind = true from ⟨fun h => by omega, hb⟩), hs.hi]
        by_cases hrl : r ∈ ds.hiT
        · rw [if_pos hrl, if_pos hrl]
        · rw [if_neg hrl, if_neg hrl, congrFun fb r]; exact h.hiT r hrl
      · rw [if_neg (by simp [hb]), if_neg (by simp [hb]), hr]
    · rw [(tighten_other sq ds l _ _ (i + 1) k hki _).2]
      exact h.nhi k (by omega) r
  · obtain ⟨t1, t2⟩ := tighten_other sq ds l (gain (i + 1)) (fun _ => true) (i + 1) k (by omega) (m, s.2)
    rw [t1, t2]; exact h.rest k (by omega)
  · exact ⟨h.ns.1, h.ns.2, h.ns.3, h.ns.4, h.ns.5, h.ns.6⟩

theorem loop_inv (s : Mem K d × Nlp K d) (h : LInv sq ds l gain data n0 nb m0 0 s) (i : Nat) :
    LInv sq ds l gain data n0 nb m0 i ((List.range i).foldl (stageStep sq ds l gain data) s) := by
  induction i with
  | zero => exact h
  | succ i ih =>
    rw [List.range_succ, List.foldl_append]
    exact step_inv sq ds l gain data n0 nb m0 h1 h2 h3 h4 i _ ih

end
end Acados.Zoro
