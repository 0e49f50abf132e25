import Verif.Lemmas.ZoroLoop
/-! A whole update, and sequences of updates. -/
namespace Acados.Zoro
open Matrix
set_option linter.unusedSectionVars false
variable {K : Type*} [Field K] [LinearOrder K] {d : Dims}

/-- what one part of an update leaves alone -/
structure Fr (ds : Desc K d) (m m' : Mem K d) : Prop where
  same : Same m m'
  p0 : m'.P 0 = m.P 0
  loT : ∀ r ∉ ds.loT, m'.loT r = m.loT r
  hiT : ∀ r ∉ ds.hiT, m'.hiT r = m.hiT r
  loTE : ∀ r ∉ ds.loTE, m'.loTE r = m.loTE r
  hiTE : ∀ r ∉ ds.hiTE, m'.hiTE r = m.hiTE r
  gwg : ds.inWadd = false → m'.GWG = m.GWG
  wst : (∀ i j, i ≠ j → m.W i j = 0) → (∀ i j, i ≠ j → m.Wst i j = 0) → ∀ i j, i ≠ j → m'.Wst i j = 0

theorem Fr.refl (ds : Desc K d) (m : Mem K d) : Fr ds m m :=
  ⟨Same.refl m, rfl, fun _ _ => rfl, fun _ _ => rfl, fun _ _ => rfl, fun _ _ => rfl, fun _ => rfl, fun _ h => h⟩

theorem Fr.trans {ds : Desc K d} {a b c : Mem K d} (h : Fr ds a b) (h' : Fr ds b c) : Fr ds a c :=
  ⟨h.same.trans h'.same, h'.p0.trans h.p0, fun r hr => (h'.loT r hr).trans (h.loT r hr),
    fun r hr => (h'.hiT r hr).trans (h.hiT r hr), fun r hr => (h'.loTE r hr).trans (h.loTE r hr),
    fun r hr => (h'.hiTE r hr).trans (h.hiTE r hr), fun hf => (h'.gwg hf).trans (h.gwg hf),
    fun hw hs => h'.wst (by rw [h.same.W]; exact hw) (h.wst hw hs)⟩

section
variable (sq : K → K) (ds : Desc K d) (l : Lin K d) (gain : Nat → Mat K d.nu d.nx) (data : List K)

theorem stage_fr (ii : Nat) (m : Mem K d) : Fr ds m (stage ds data ii m) := by
  obtain ⟨a, b, c, e, f, g, h⟩ := stage_frame ds data ii m
  refine ⟨stage_same ds data ii m, by rw [a], fun r _ => by rw [e], fun r _ => by rw [f], fun r _ => by rw [g],
    fun r _ => by rw [h], fun hf => ?_, fun hw hs i j hij => ?_⟩
  · unfold stage; rw [if_neg (by rw [hf]; decide)]
  · unfold stage; split
    · show (if i = j then _ else m.Wst i j) + m.W i j = 0
      rw [if_neg hij, hw i j hij, hs i j hij, add_zero]
    · exact hs i j hij

theorem propagate_fr (ii : Nat) (m : Mem K d) : Fr ds m (propagate ds l gain data ii m) := by
  have h := stage_fr ds data ii m
  refine h.trans ?_
  cases hm : modeOf ds with
  | none =>
    rw [propagate_none ds l gain data ii m hm]
    exact ⟨⟨rfl, rfl, rfl, rfl, rfl, rfl, rfl, rfl, rfl, rfl, rfl, rfl⟩,
      by simp, fun _ _ => rfl, fun _ _ => rfl, fun _ _ => rfl,
      fun _ _ => rfl, fun _ => rfl, fun _ h => h⟩
  | noise =>
    rw [propagate_noiseMode ds l gain data ii m hm]
    exact ⟨⟨rfl, rfl, rfl, rfl, rfl, rfl, rfl, rfl, rfl, rfl, rfl, rfl⟩,
      by simp, fun _ _ => rfl, fun _ _ => rfl, fun _ _ => rfl,
      fun _ _ => rfl, fun _ => rfl, fun _ h => h⟩
  | constant =>
    rw [propagate_constant ds l gain data ii m hm]
    exact ⟨⟨rfl, rfl, rfl, rfl, rfl, rfl, rfl, rfl, rfl, rfl, rfl, rfl⟩,
      by simp, fun _ _ => rfl, fun _ _ => rfl, fun _ _ => rfl,
      fun _ _ => rfl, fun _ => rfl, fun _ h => h⟩

theorem tighten_fr (Kk : Mat K d.nu d.nx) (ks : Kind → Bool) (k : Nat) (s : Mem K d × Nlp K d) :
    Fr ds s.1 (tighten sq ds l Kk ks k s).1 :=
  ⟨tighten_same sq ds l Kk ks k s, rfl, (tighten_mem sq ds l Kk ks k s).1, (tighten_mem sq ds l Kk ks k s).2,
    fun _ _ => rfl, fun _ _ => rfl, fun _ => rfl, fun _ h => h⟩

theorem tightenE_fr (Kk : Mat K d.nu d.nx) (s : Mem K d × Nlp K d) :
    Fr ds s.1 (tightenE sq ds l Kk s).1 :=
  ⟨⟨rfl, rfl, rfl, rfl, rfl, rfl, rfl, rfl, rfl, rfl, rfl, rfl⟩, rfl, fun _ _ => rfl, fun _ _ => rfl,
    fun _ hr => if_neg hr, fun _ hr => if_neg hr, fun _ => rfl, fun _ h => h⟩

/-- memory at the start of the propagation -/
def start (m : Mem K d) : Mem K d := if modeOf ds = .constant then { m with Pi := 0, Pw := m.P 0 } else m

theorem start_fr (m : Mem K d) : Fr ds m (start ds m) := by
  unfold start; split
  · exact ⟨⟨rfl, rfl, rfl, rfl, rfl, rfl, rfl, rfl, rfl, rfl, rfl, rfl⟩, rfl, fun _ _ => rfl, fun _ _ => rfl,
      fun _ _ => rfl, fun _ _ => rfl, fun _ => rfl, fun _ h => h⟩
  · exact Fr.refl ds m

theorem fold_fr (s : Mem K d × Nlp K d) (i : Nat) :
    Fr ds s.1 ((List.range i).foldl (stageStep sq ds l gain data) s).1 := by
  induction i with
  | zero => exact Fr.refl ds s.1
  | succ i ih =>
    rw [List.range_succ, List.foldl_append]
    exact ih.trans ((propagate_fr ds l gain data i _).trans
      (tighten_fr sq ds l (gain (i + 1)) (fun _ => true) (i + 1) (propagate ds l gain data i _, _)))

theorem all_fr (s : Mem K d × Nlp K d) : Fr ds s.1 (propagateAll sq ds l gain data s).1 :=
  (start_fr ds s.1).trans ((tighten_fr sq ds l _ _ _ (start ds s.1, s.2)).trans
    ((fold_fr sq ds l gain data _ _).trans ((propagate_fr ds l gain data _ _).trans (tightenE_fr sq ds l _ (_, _)))))

theorem start_P (m : Mem K d) : PInv ds l gain data (start ds m).W (start ds m).Sigma ((start ds m).P 0) 0 (start ds m) := by
  refine ⟨fun k hk => ?_, fun h => ?_, fun h => ?_⟩
  · obtain rfl : k = 0 := by omega
    cases hm : modeOf ds <;> simp [cov, covS, parS]
  · simp only [start, if_pos h]; rfl
  · simp only [start, if_pos h]; rfl

/-- squared back-off of a terminal row -/
def bvalE (n : Nlp K d) (P : Mat K d.nx d.nx) (r : RowE d) : K :=
  if ds.barrier then ds.gamma * ds.gamma * quad P (dirE n l r) + ds.eps
  else ds.gamma * ds.gamma * quad P (dirE n l r)

/-- the rows for which the terminal computation uses the matrix of the row -/
def RowOk (n : Nlp K d) (r : RowE d) : Prop :=
  r.kind = .g → ∀ hn : d.nge ≤ d.ng, cgTop hn n.Cg = n.Cge

theorem rowSqE_quad (m : Mem K d) (n : Nlp K d) (Kk : Mat K d.nu d.nx) (r : RowE d) (hub : terminalUb ds = false)
    (hr : (hasKindE ds.loTE r.kind || hasKindE ds.hiTE r.kind) = true) (hg : RowOk n r)
    (h1 : m.idxbxe = n.idxbxe) (h2 : m.Cg = n.Cg) :
    rowSqE ds m l Kk r = some (ds.gamma * ds.gamma * quad (m.P d.N) (dirE n l r)) := by
  unfold terminalUb at hub
  rw [Bool.or_eq_false_iff] at hub
  cases r with
  | bx i => simp only [rowSqE, dirE, ← entry_quad, h1]
  | g i =>
    have hn : d.nge ≤ d.ng := by
      by_contra hc
      have := hub.1
      simp only [RowE.kind] at hr
      rw [hr] at this
      simp [hc] at this
    simp only [rowSqE, dirE, dif_pos hn, ghBeta_quad, Matrix.zero_mul, sub_zero]
    rw [h2, hg rfl hn]
  | h i =>
    have hn : d.nhe ≤ d.nh := by
      by_contra hc
      have := hub.2
      simp only [RowE.kind] at hr
      rw [hr] at this
      simp [hc] at this
    simp only [rowSqE, dirE, if_pos hn, ghBeta_quad, Matrix.zero_mul, sub_zero]
    rfl

theorem tightenE_spec (Kk : Mat K d.nu d.nx) (m : Mem K d) (n n0 : Nlp K d) (hub : terminalUb ds = false)
    (h1 : m.idxbxe = n0.idxbxe) (h2 : m.Cg = n0.Cg) (r : RowE d) (hg : RowOk n0 r) :
    ((tightenE sq ds l Kk (m, n)).2.loE r =
      if hasKindE ds.loTE r.kind then
        if r ∈ ds.loTE then m.loE r + sq (bvalE ds l n0 (m.P d.N) r) else m.loTE r
      else n.loE r) ∧
    ((tightenE sq ds l Kk (m, n)).2.hiE r =
      if hasKindE ds.hiTE r.kind then
        if r ∈ ds.hiTE then m.hiE r - sq (bvalE ds l n0 (m.P d.N) r) else m.hiTE r
      else n.hiE r) := by
  have hb : (hasKindE ds.loTE r.kind || hasKindE ds.hiTE r.kind) = true →
      newBsqE ds m l Kk r = bvalE ds l n0 (m.P d.N) r := by
    intro hh
    unfold newBsqE
    rw [if_pos hh, rowSqE_quad ds l m n0 Kk r hub hh hg h1 h2]; rfl
  refine ⟨?_, ?_⟩
  · simp only [tightenE]
    by_cases hr : r ∈ ds.loTE
    · rw [hb (by rw [hasKindE_mem hr]; rfl)]
    · simp [hr]
  · simp only [tightenE]
    by_cases hr : r ∈ ds.hiTE
    · rw [hb (by rw [hasKindE_mem hr, Bool.or_true])]
    · simp [hr]

/-- the state when the terminal stage is reached -/
def before (s : Mem K d × Nlp K d) : Mem K d × Nlp K d :=
  (List.range (d.N - 1)).foldl (stageStep sq ds l gain data)
    (tighten sq ds l (gain 0) (fun k => decide (k = .bu)) 0 (start ds s.1, s.2))

theorem all_eq (s : Mem K d × Nlp K d) : propagateAll sq ds l gain data s
    = tightenE sq ds l (gain (d.N - 1)) (propagate ds l gain data (d.N - 1) (before sq ds l gain data s).1,
        (before sq ds l gain data s).2) := rfl

theorem before_inv (n0 : Nlp K d) (s : Mem K d × Nlp K d) (hN : NoiseInv ds s.1) (h1 : s.1.idxbu = n0.idxbu)
    (h2 : s.1.idxbx = n0.idxbx) (h3 : s.1.Cg = n0.Cg) (h4 : s.1.Dg = n0.Dg) :
    LInv sq ds l gain data n0 s.2 (start ds s.1) (d.N - 1) (before sq ds l gain data s) := by
  have hf := start_fr ds s.1
  have hN' : NoiseInv ds (start ds s.1) := by
    unfold start; split
    · exact hN
    · exact hN
  exact loop_inv sq ds l gain data n0 s.2 (start ds s.1) (hf.same.idxbu.trans h1) (hf.same.idxbx.trans h2)
    (hf.same.Cg.trans h3) (hf.same.Dg.trans h4) _
    (first_inv sq ds l gain data n0 s.2 (start ds s.1) (hf.same.idxbu.trans h1) (hf.same.idxbx.trans h2)
      (hf.same.Cg.trans h3) (hf.same.Dg.trans h4) hN' (start_P ds l gain data s.1)) _

end
end Acados.Zoro
