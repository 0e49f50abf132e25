import Verif.Lemmas.CasadiNlp

/-! Lemmas for C97: the variables and constraints of the NLP stage by stage. -/

namespace Acados.CasadiNlp

section
variable {K : Type*}

/-! ### Variables -/

def xs (o : Ocp K) (i : ℕ) : List Sym := (List.range o.nx).map (Sym.x i)
def us (o : Ocp K) (i : ℕ) : List Sym := (List.range o.nu).map (Sym.u i)
def sls (o : Ocp K) (i : ℕ) : List Sym := (List.range (numSlack (varData o i))).map (Sym.sl i)
def sus (o : Ocp K) (i : ℕ) : List Sym := (List.range (numSlack (varData o i))).map (Sym.su i)
def bxs (o : Ocp K) (i : ℕ) : List Sym :=
  (List.range (varData o i).nbx).map (fun k => Sym.x i ((varData o i).idxbx k))
def bus (o : Ocp K) (i : ℕ) : List Sym := (List.range o.nbu).map (fun k => Sym.u i (o.idxbu k))

def symsAt (o : Ocp K) (i : ℕ) : List Sym :=
  xs o i ++ (if i < o.N then us o i else []) ++ sls o i ++ sus o i

structure PInv (o : Ocp K) (kx ku ksl ksu : ℕ) (w : List Sym) (s : Vars K) : Prop where
  hw : s.w = w
  offW : s.offW = w.length
  offLam : s.offLam = w.length
  x : Maps w s.xInW kx (xs o)
  bx : Maps w s.lamBx kx (bxs o)
  u : Maps w s.uInW ku (us o)
  bu : Maps w s.lamBu ku (bus o)
  sl : Maps w s.slInW ksl (sls o)
  lsl : Maps w s.lamSl ksl (sls o)
  su : Maps w s.suInW ksu (sus o)
  lsu : Maps w s.lamSu ksu (sus o)

theorem pinv_addX {o : Ocp K} {kx ku ksl ksu w s} (h : PInv o kx ku ksl ksu w s)
    (hb : ∀ k, k < (varData o kx).nbx → (varData o kx).idxbx k < o.nx) :
    PInv o (kx + 1) ku ksl ksu (w ++ xs o kx) (addX o kx s) where
  hw := by simp [addX, h.hw, xs]
  offW := by simp [addX, h.offW, xs]
  offLam := by simp [addX, h.offLam, xs]
  x := (h.x.append _).push (by rw [h.offW]; exact At.new w _ _)
  bx := (h.bx.append _).push (by
    rw [h.offLam]; exact At.newMap w _ _ (Sym.x kx) _ hb)
  u := h.u.append _
  bu := h.bu.append _
  sl := h.sl.append _
  lsl := h.lsl.append _
  su := h.su.append _
  lsu := h.lsu.append _

theorem pinv_addU {o : Ocp K} {kx ku ksl ksu w s} (h : PInv o kx ku ksl ksu w s)
    (hb : ∀ k, k < o.nbu → o.idxbu k < o.nu) :
    PInv o kx (ku + 1) ksl ksu (w ++ us o ku) (addU o ku s) where
  hw := by simp [addU, h.hw, us]
  offW := by simp [addU, h.offW, us]
  offLam := by simp [addU, h.offLam, us]
  u := (h.u.append _).push (by rw [h.offW]; exact At.new w _ _)
  bu := (h.bu.append _).push (by
    rw [h.offLam]; exact At.newMap w _ _ (Sym.u ku) _ hb)
  x := h.x.append _
  bx := h.bx.append _
  sl := h.sl.append _
  lsl := h.lsl.append _
  su := h.su.append _
  lsu := h.lsu.append _

variable [Zero K]

theorem addSl_w (o : Ocp K) (i : ℕ) (s : Vars K) : (addSl o i s).w = s.w ++ sls o i := by
  unfold addSl sls
  dsimp only
  split
  · rfl
  · have : numSlack (varData o i) = 0 := by omega
    simp [this]

theorem addSl_map (o : Ocp K) (i : ℕ) (s : Vars K) :
    (addSl o i s).slInW = s.slInW ++ [block s.offW (numSlack (varData o i))] := by
  unfold addSl
  dsimp only
  split
  · rfl
  · have : numSlack (varData o i) = 0 := by omega
    simp [this, block]

theorem addSl_off (o : Ocp K) (i : ℕ) (s : Vars K) :
    (addSl o i s).offW = s.offW + numSlack (varData o i) := by
  unfold addSl
  dsimp only
  split
  · rfl
  · omega

theorem addSu_w (o : Ocp K) (i : ℕ) (s : Vars K) : (addSu o i s).w = s.w ++ sus o i := by
  unfold addSu sus
  dsimp only
  split
  · rfl
  · have : numSlack (varData o i) = 0 := by omega
    simp [this]

theorem addSu_map (o : Ocp K) (i : ℕ) (s : Vars K) :
    (addSu o i s).suInW = s.suInW ++ [block s.offW (numSlack (varData o i))] := by
  unfold addSu
  dsimp only
  split
  · rfl
  · have : numSlack (varData o i) = 0 := by omega
    simp [this, block]

theorem addSu_off (o : Ocp K) (i : ℕ) (s : Vars K) :
    (addSu o i s).offW = s.offW + numSlack (varData o i) := by
  unfold addSu
  dsimp only
  split
  · rfl
  · omega

theorem pinv_addSl {o : Ocp K} {kx ku ksl ksu w} {s : Vars K} (h : PInv o kx ku ksl ksu w s) :
    PInv o kx ku (ksl + 1) ksu (w ++ sls o ksl) (addSl o ksl s) where
  hw := by rw [addSl_w, h.hw]
  offW := by rw [addSl_off, h.offW]; simp [sls]
  offLam := by simp [addSl, h.offLam, sls]
  sl := by
    rw [addSl_map]
    exact (h.sl.append _).push (by rw [h.offW]; exact At.new w _ _)
  lsl := (h.lsl.append _).push (by rw [h.offLam]; exact At.new w _ _)
  x := h.x.append _
  bx := h.bx.append _
  u := h.u.append _
  bu := h.bu.append _
  su := h.su.append _
  lsu := h.lsu.append _

theorem pinv_addSu {o : Ocp K} {kx ku ksl ksu w} {s : Vars K} (h : PInv o kx ku ksl ksu w s) :
    PInv o kx ku ksl (ksu + 1) (w ++ sus o ksu) (addSu o ksu s) where
  hw := by rw [addSu_w, h.hw]
  offW := by rw [addSu_off, h.offW]; simp [sus]
  offLam := by simp [addSu, h.offLam, sus]
  su := by
    rw [addSu_map]
    exact (h.su.append _).push (by rw [h.offW]; exact At.new w _ _)
  lsu := (h.lsu.append _).push (by rw [h.offLam]; exact At.new w _ _)
  x := h.x.append _
  bx := h.bx.append _
  u := h.u.append _
  bu := h.bu.append _
  sl := h.sl.append _
  lsl := h.lsl.append _

def lbAt (o : Ocp K) (i : ℕ) : List (Option K) :=
  scatter o.nx (varData o i).nbx (varData o i).idxbx (varData o i).lbx ++
  (if i < o.N then scatter o.nu o.nbu o.idxbu o.lbu else []) ++
  List.replicate (numSlack (varData o i)) (some 0) ++
  List.replicate (numSlack (varData o i)) (some 0)

omit [Zero K] in
def ubAt (o : Ocp K) (i : ℕ) : List (Option K) :=
  scatter o.nx (varData o i).nbx (varData o i).idxbx (varData o i).ubx ++
  (if i < o.N then scatter o.nu o.nbu o.idxbu o.ubu else []) ++
  List.replicate (numSlack (varData o i)) none ++
  List.replicate (numSlack (varData o i)) none

theorem varStage_lbw (o : Ocp K) (s : Vars K) (i : ℕ) :
    (varStage o s i).lbw = s.lbw ++ lbAt o i := by
  unfold varStage lbAt
  by_cases h : i < o.N <;> simp [h, addX, addU, addSl, addSu]

theorem varStage_ubw (o : Ocp K) (s : Vars K) (i : ℕ) :
    (varStage o s i).ubw = s.ubw ++ ubAt o i := by
  unfold varStage ubAt
  by_cases h : i < o.N <;> simp [h, addX, addU, addSl, addSu]

structure VInv (o : Ocp K) (k : ℕ) (s : Vars K) : Prop where
  p : PInv o k (min k o.N) k k ((List.range k).flatMap (symsAt o)) s
  lbw : s.lbw = (List.range k).flatMap (lbAt o)
  ubw : s.ubw = (List.range k).flatMap (ubAt o)

theorem vinv_step {o : Ocp K} (ho : Proper o) {k : ℕ} {s : Vars K} (h : VInv o k s)
    (hk : k ≤ o.N) : VInv o (k + 1) (varStage o s k) where
  p := by
    have h1 := pinv_addX h.p (ho.bx k hk)
    rw [List.range_succ, List.flatMap_append]
    simp only [List.flatMap_cons, List.flatMap_nil, List.append_nil]
    rw [show symsAt o k = xs o k ++ (if k < o.N then us o k else []) ++ sls o k ++ sus o k from rfl]
    unfold varStage
    by_cases hk' : k < o.N
    · have e1 : min k o.N = k := by omega
      have e2 : min (k + 1) o.N = k + 1 := by omega
      rw [e1] at h1
      have h2 := pinv_addSu (pinv_addSl (pinv_addU h1 ho.bu))
      rw [e2]
      simpa [hk', List.append_assoc] using h2
    · have e1 : min k o.N = o.N := by omega
      have e2 : min (k + 1) o.N = o.N := by omega
      rw [e1] at h1
      have h2 := pinv_addSu (pinv_addSl h1)
      rw [e2]
      simpa [hk', List.append_assoc] using h2
  lbw := by
    rw [varStage_lbw, h.lbw, List.range_succ, List.flatMap_append]
    simp
  ubw := by
    rw [varStage_ubw, h.ubw, List.range_succ, List.flatMap_append]
    simp

theorem vinv (o : Ocp K) (ho : Proper o) : VInv o (o.N + 1) (vars o) := by
  have key : ∀ k, k ≤ o.N + 1 → VInv o k ((List.range k).foldl (varStage o) Vars.empty) := by
    intro k
    induction k with
    | zero =>
      intro _
      refine ⟨⟨rfl, rfl, rfl, Maps.zero _ _, Maps.zero _ _, ?_, ?_, Maps.zero _ _, Maps.zero _ _,
        Maps.zero _ _, Maps.zero _ _⟩, rfl, rfl⟩
      · rw [Nat.zero_min]; exact Maps.zero _ _
      · rw [Nat.zero_min]; exact Maps.zero _ _
    | succ k ih =>
      intro hk
      rw [List.range_succ, List.foldl_append]
      exact vinv_step ho (ih (by omega)) (by omega)
  exact key _ le_rfl

omit [Zero K] in
theorem mem_symsAt {o : Ocp K} {i : ℕ} {s : Sym} (h : s ∈ symsAt o i) :
    (∃ j, s = .x i j) ∨ (∃ j, s = .u i j) ∨ (∃ j, s = .sl i j) ∨ (∃ j, s = .su i j) := by
  unfold symsAt xs us sls sus at h
  simp only [List.mem_append, List.mem_map, List.mem_range] at h
  rcases h with ((⟨j, _, rfl⟩ | h) | ⟨j, _, rfl⟩) | ⟨j, _, rfl⟩
  · exact Or.inl ⟨j, rfl⟩
  · split at h
    · obtain ⟨j, _, rfl⟩ := List.mem_map.1 h
      exact Or.inr (Or.inl ⟨j, rfl⟩)
    · cases h
  · exact Or.inr (Or.inr (Or.inl ⟨j, rfl⟩))
  · exact Or.inr (Or.inr (Or.inr ⟨j, rfl⟩))

omit [Zero K] in
theorem nodup_symsAt (o : Ocp K) (i : ℕ) : (symsAt o i).Nodup := by
  have hx : (xs o i).Nodup := List.Nodup.map (fun a b h => by cases h; rfl) List.nodup_range
  have hu : (if i < o.N then us o i else []).Nodup := by
    split
    · exact List.Nodup.map (fun a b h => by cases h; rfl) List.nodup_range
    · exact List.nodup_nil
  have hsl : (sls o i).Nodup := List.Nodup.map (fun a b h => by cases h; rfl) List.nodup_range
  have hsu : (sus o i).Nodup := List.Nodup.map (fun a b h => by cases h; rfl) List.nodup_range
  have mu : ∀ s, s ∈ (if i < o.N then us o i else []) → ∃ j, s = Sym.u i j := by
    intro s hs
    split at hs
    · obtain ⟨j, _, rfl⟩ := List.mem_map.1 hs
      exact ⟨j, rfl⟩
    · cases hs
  unfold symsAt
  refine ((hx.append hu ?_).append hsl ?_).append hsu ?_
  · intro s h1 h2
    obtain ⟨j, rfl⟩ := mu s h2
    simp [xs] at h1
  · intro s h1 h2
    rcases List.mem_append.1 h1 with h1 | h1
    · simp only [xs, List.mem_map] at h1
      obtain ⟨j, _, rfl⟩ := h1
      simp [sls] at h2
    · obtain ⟨j, rfl⟩ := mu s h1
      simp [sls] at h2
  · intro s h1 h2
    rcases List.mem_append.1 h1 with h1 | h1
    · rcases List.mem_append.1 h1 with h1 | h1
      · simp only [xs, List.mem_map] at h1
        obtain ⟨j, _, rfl⟩ := h1
        simp [sus] at h2
      · obtain ⟨j, rfl⟩ := mu s h1
        simp [sus] at h2
    · simp only [sls, List.mem_map] at h1
      obtain ⟨j, _, rfl⟩ := h1
      simp [sus] at h2

omit [Zero K] in
theorem nodup_w (o : Ocp K) (k : ℕ) : ((List.range k).flatMap (symsAt o)).Nodup := by
  rw [List.nodup_flatMap]
  refine ⟨fun i _ => nodup_symsAt o i, ?_⟩
  refine (List.nodup_range (n := k)).imp ?_
  intro a b hab s h1 h2
  rcases mem_symsAt h1 with ⟨j, rfl⟩ | ⟨j, rfl⟩ | ⟨j, rfl⟩ | ⟨j, rfl⟩ <;>
  · rcases mem_symsAt h2 with ⟨j', h⟩ | ⟨j', h⟩ | ⟨j', h⟩ | ⟨j', h⟩ <;> cases h
    exact hab rfl

end

section
variable {K : Type*}

/-! ### Constraints -/

def dyns (o : Ocp K) (i : ℕ) : List Con := (List.range o.nx).map (Con.dyn i)
def lins (o : Ocp K) (i : ℕ) : List Con := (List.range (conNg o i)).map (Con.lin i)
def phis (o : Ocp K) (i : ℕ) : List Con := (List.range (conData o i).nphi).map (Con.phi i)

def hRow (d : Stage K) (i r : ℕ) : List Con :=
  if r ∈ softList d then [.hl i r ((softList d).idxOf r), .hu i r ((softList d).idxOf r)]
  else [.h i r]

def hardRow (d : Stage K) (i r : ℕ) : List Con := if r ∈ softList d then [] else [.h i r]
def slRow (d : Stage K) (i r : ℕ) : List Con :=
  if r ∈ softList d then [.hl i r ((softList d).idxOf r)] else []
def suRow (d : Stage K) (i r : ℕ) : List Con :=
  if r ∈ softList d then [.hu i r ((softList d).idxOf r)] else []

def hs (o : Ocp K) (i : ℕ) : List Con :=
  (List.range (conData o i).nh).flatMap (hRow (conData o i) i)
def hardHs (o : Ocp K) (i : ℕ) : List Con :=
  (List.range (conData o i).nh).flatMap (hardRow (conData o i) i)
def slAt (o : Ocp K) (i : ℕ) : List Con :=
  (List.range (conData o i).nh).flatMap (slRow (conData o i) i)
def suAt (o : Ocp K) (i : ℕ) : List Con :=
  (List.range (conData o i).nh).flatMap (suRow (conData o i) i)
def hardAt (o : Ocp K) (i : ℕ) : List Con := lins o i ++ hardHs o i ++ phis o i

def consAt (o : Ocp K) (i : ℕ) : List Con :=
  (if i < o.N then dyns o i else []) ++ lins o i ++ hs o i ++ phis o i

structure CP (o : Ocp K) (k kp : ℕ) (g gg hh pp hard sl su : List Con) (s : Cons K) : Prop where
  hg : s.g = g
  offG : s.offG = g.length
  pi : Maps g s.pi kp (dyns o)
  doneG : ∀ i, i < k → At g (s.lamG i) (lins o i)
  doneH : ∀ i, i < k → At g (s.lamH i) (hardHs o i)
  doneP : ∀ i, i < k → At g (s.lamPhi i) (phis o i)
  doneN : ∀ i, i < k → At g (s.lamGnl i) (hardAt o i)
  doneL : ∀ i, i < k → At g (s.lamGnlSl i) (slAt o i)
  doneU : ∀ i, i < k → At g (s.lamGnlSu i) (suAt o i)
  curG : At g (s.lamG k) gg
  curH : At g (s.lamH k) hh
  curP : At g (s.lamPhi k) pp
  curN : At g (s.lamGnl k) hard
  curL : At g (s.lamGnlSl k) sl
  curU : At g (s.lamGnlSu k) su
  rest : ∀ i, k < i → s.lamG i = [] ∧ s.lamH i = [] ∧ s.lamPhi i = [] ∧ s.lamGnl i = [] ∧
    s.lamGnlSl i = [] ∧ s.lamGnlSu i = []

theorem extend_same (m : ℕ → List ℕ) (i : ℕ) (l : List ℕ) : extend m i l i = m i ++ l := by
  simp [extend]

theorem extend_other (m : ℕ → List ℕ) {i i' : ℕ} (l : List ℕ) (h : i' ≠ i) :
    extend m i l i' = m i' := by
  simp [extend, h]

theorem cp_appDyn {o : Ocp K} {k kp g gg hh pp hard sl su} {s : Cons K}
    (h : CP o k kp g gg hh pp hard sl su s) (lo up) :
    CP o k (kp + 1) (g ++ dyns o kp) gg hh pp hard sl su (appDyn s (dyns o kp) lo up o.nx) where
  hg := by simp [appDyn, h.hg]
  offG := by simp [appDyn, h.offG, dyns]
  pi := (h.pi.append _).push (by rw [h.offG]; exact At.new g _ _)
  doneG := fun i hi => (h.doneG i hi).append _
  doneH := fun i hi => (h.doneH i hi).append _
  doneP := fun i hi => (h.doneP i hi).append _
  doneN := fun i hi => (h.doneN i hi).append _
  doneL := fun i hi => (h.doneL i hi).append _
  doneU := fun i hi => (h.doneU i hi).append _
  curG := h.curG.append _
  curH := h.curH.append _
  curP := h.curP.append _
  curN := h.curN.append _
  curL := h.curL.append _
  curU := h.curU.append _
  rest := h.rest

theorem cp_appG {o : Ocp K} {k kp g gg hh pp hard sl su} {s : Cons K}
    (h : CP o k kp g gg hh pp hard sl su s) (n : ℕ) (c : ℕ → Con) (lo up) :
    CP o k kp (g ++ (List.range n).map c) (gg ++ (List.range n).map c) hh pp
      (hard ++ (List.range n).map c) sl su (appG s k ((List.range n).map c) lo up n) where
  hg := by simp [appG, h.hg]
  offG := by simp [appG, h.offG]
  pi := h.pi.append _
  doneG := fun i hi => by
    simp only [appG]; rw [extend_other _ _ (by omega)]; exact (h.doneG i hi).append _
  doneH := fun i hi => (h.doneH i hi).append _
  doneP := fun i hi => (h.doneP i hi).append _
  doneN := fun i hi => by
    simp only [appG]; rw [extend_other _ _ (by omega)]; exact (h.doneN i hi).append _
  doneL := fun i hi => (h.doneL i hi).append _
  doneU := fun i hi => (h.doneU i hi).append _
  curG := by
    simp only [appG]; rw [extend_same, h.offG]; exact (h.curG.append _).concat (At.new g n c)
  curH := h.curH.append _
  curP := h.curP.append _
  curN := by
    simp only [appG]; rw [extend_same, h.offG]; exact (h.curN.append _).concat (At.new g n c)
  curL := h.curL.append _
  curU := h.curU.append _
  rest := fun i hi => by
    have := h.rest i hi
    simp only [appG]
    rw [extend_other _ _ (by omega), extend_other _ _ (by omega)]
    exact this

theorem cp_appH {o : Ocp K} {k kp g gg hh pp hard sl su} {s : Cons K}
    (h : CP o k kp g gg hh pp hard sl su s) (n : ℕ) (c : ℕ → Con) (lo up) :
    CP o k kp (g ++ (List.range n).map c) gg (hh ++ (List.range n).map c) pp
      (hard ++ (List.range n).map c) sl su (appH s k ((List.range n).map c) lo up n) where
  hg := by simp [appH, h.hg]
  offG := by simp [appH, h.offG]
  pi := h.pi.append _
  doneG := fun i hi => (h.doneG i hi).append _
  doneH := fun i hi => by
    simp only [appH]; rw [extend_other _ _ (by omega)]; exact (h.doneH i hi).append _
  doneP := fun i hi => (h.doneP i hi).append _
  doneN := fun i hi => by
    simp only [appH]; rw [extend_other _ _ (by omega)]; exact (h.doneN i hi).append _
  doneL := fun i hi => (h.doneL i hi).append _
  doneU := fun i hi => (h.doneU i hi).append _
  curG := h.curG.append _
  curH := by
    simp only [appH]; rw [extend_same, h.offG]; exact (h.curH.append _).concat (At.new g n c)
  curP := h.curP.append _
  curN := by
    simp only [appH]; rw [extend_same, h.offG]; exact (h.curN.append _).concat (At.new g n c)
  curL := h.curL.append _
  curU := h.curU.append _
  rest := fun i hi => by
    have := h.rest i hi
    simp only [appH]
    rw [extend_other _ _ (by omega), extend_other _ _ (by omega)]
    exact this

theorem cp_appPhi {o : Ocp K} {k kp g gg hh pp hard sl su} {s : Cons K}
    (h : CP o k kp g gg hh pp hard sl su s) (n : ℕ) (c : ℕ → Con) (lo up) :
    CP o k kp (g ++ (List.range n).map c) gg hh (pp ++ (List.range n).map c)
      (hard ++ (List.range n).map c) sl su (appPhi s k ((List.range n).map c) lo up n) where
  hg := by simp [appPhi, h.hg]
  offG := by simp [appPhi, h.offG]
  pi := h.pi.append _
  doneG := fun i hi => (h.doneG i hi).append _
  doneP := fun i hi => by
    simp only [appPhi]; rw [extend_other _ _ (by omega)]; exact (h.doneP i hi).append _
  doneH := fun i hi => (h.doneH i hi).append _
  doneN := fun i hi => by
    simp only [appPhi]; rw [extend_other _ _ (by omega)]; exact (h.doneN i hi).append _
  doneL := fun i hi => (h.doneL i hi).append _
  doneU := fun i hi => (h.doneU i hi).append _
  curG := h.curG.append _
  curP := by
    simp only [appPhi]; rw [extend_same, h.offG]; exact (h.curP.append _).concat (At.new g n c)
  curH := h.curH.append _
  curN := by
    simp only [appPhi]; rw [extend_same, h.offG]; exact (h.curN.append _).concat (At.new g n c)
  curL := h.curL.append _
  curU := h.curU.append _
  rest := fun i hi => by
    have := h.rest i hi
    simp only [appPhi]
    rw [extend_other _ _ (by omega), extend_other _ _ (by omega)]
    exact this

theorem cp_appSl {o : Ocp K} {k kp g gg hh pp hard sl su} {s : Cons K}
    (h : CP o k kp g gg hh pp hard sl su s) (c : Con) (lo up) :
    CP o k kp (g ++ [c]) gg hh pp hard (sl ++ [c]) su (appSl s k c lo up) where
  hg := by simp [appSl, h.hg]
  offG := by simp [appSl, h.offG]
  pi := h.pi.append _
  doneG := fun i hi => (h.doneG i hi).append _
  doneP := fun i hi => (h.doneP i hi).append _
  doneH := fun i hi => (h.doneH i hi).append _
  doneN := fun i hi => (h.doneN i hi).append _
  doneL := fun i hi => by
    simp only [appSl]; rw [extend_other _ _ (by omega)]; exact (h.doneL i hi).append _
  doneU := fun i hi => (h.doneU i hi).append _
  curG := h.curG.append _
  curP := h.curP.append _
  curH := h.curH.append _
  curN := h.curN.append _
  curL := by
    simp only [appSl]; rw [extend_same, h.offG]; exact (h.curL.append _).concat (At.single g c)
  curU := h.curU.append _
  rest := fun i hi => by
    have := h.rest i hi
    simp only [appSl]
    rw [extend_other _ _ (by omega)]
    exact this

theorem cp_appSu {o : Ocp K} {k kp g gg hh pp hard sl su} {s : Cons K}
    (h : CP o k kp g gg hh pp hard sl su s) (c : Con) (lo up) :
    CP o k kp (g ++ [c]) gg hh pp hard sl (su ++ [c]) (appSu s k c lo up) where
  hg := by simp [appSu, h.hg]
  offG := by simp [appSu, h.offG]
  pi := h.pi.append _
  doneG := fun i hi => (h.doneG i hi).append _
  doneP := fun i hi => (h.doneP i hi).append _
  doneH := fun i hi => (h.doneH i hi).append _
  doneN := fun i hi => (h.doneN i hi).append _
  doneU := fun i hi => by
    simp only [appSu]; rw [extend_other _ _ (by omega)]; exact (h.doneU i hi).append _
  doneL := fun i hi => (h.doneL i hi).append _
  curG := h.curG.append _
  curP := h.curP.append _
  curH := h.curH.append _
  curN := h.curN.append _
  curU := by
    simp only [appSu]; rw [extend_same, h.offG]; exact (h.curU.append _).concat (At.single g c)
  curL := h.curL.append _
  rest := fun i hi => by
    have := h.rest i hi
    simp only [appSu]
    rw [extend_other _ _ (by omega)]
    exact this

theorem cp_soft {o : Ocp K} {k kp g gg hh pp hard sl su} {s : Cons K} (d : Stage K)
    (h : CP o k kp g gg hh pp hard sl su s) (r : ℕ) (hr : r < d.nh) :
    CP o k kp (g ++ hRow d k r) gg (hh ++ hardRow d k r) pp (hard ++ hardRow d k r)
      (sl ++ slRow d k r) (su ++ suRow d k r) (softStep d k s r) := by
  unfold softStep hRow hardRow slRow suRow
  by_cases hs : r ∈ softList d
  · simp only [hs, if_true, List.append_nil]
    have := cp_appSu (cp_appSl h (.hl k r ((softList d).idxOf r)) (some (d.lh r)) none)
      (.hu k r ((softList d).idxOf r)) none (some (d.uh r))
    simpa [List.append_assoc] using this
  · have hm : r ∈ hardList d := by
      unfold hardList
      rw [List.mem_filter]
      exact ⟨List.mem_range.2 hr, by simpa using hs⟩
    simp only [hs, if_false, hm, if_true, List.append_nil]
    have := cp_appH h 1 (fun _ => Con.h k r) [some (d.lh r)] [some (d.uh r)]
    simpa using this

theorem cp_softLoop {o : Ocp K} {k kp g gg hh pp hard sl su} {s : Cons K} (d : Stage K)
    (h : CP o k kp g gg hh pp hard sl su s) (n : ℕ) (hn : n ≤ d.nh) :
    CP o k kp (g ++ (List.range n).flatMap (hRow d k)) gg
      (hh ++ (List.range n).flatMap (hardRow d k)) pp
      (hard ++ (List.range n).flatMap (hardRow d k))
      (sl ++ (List.range n).flatMap (slRow d k)) (su ++ (List.range n).flatMap (suRow d k))
      ((List.range n).foldl (softStep d k) s) := by
  induction n with
  | zero => simpa using h
  | succ n ih =>
    have := cp_soft d (ih (by omega)) n (by omega)
    rw [List.range_succ, List.foldl_append]
    simpa [List.flatMap_append, List.append_assoc] using this

theorem soft_none {d : Stage K} (h : d.nsh = 0) (r : ℕ) : r ∉ softList d := by
  simp [softList, h]

theorem hs_hard {d : Stage K} (h : d.nsh = 0) (i : ℕ) (l : List ℕ) :
    l.flatMap (hRow d i) = l.map (Con.h i) ∧ l.flatMap (hardRow d i) = l.map (Con.h i) ∧
    l.flatMap (slRow d i) = [] ∧ l.flatMap (suRow d i) = [] := by
  induction l with
  | nil => simp
  | cons r t ih =>
    simp only [List.flatMap_cons, List.map_cons, ih.1, ih.2.1, ih.2.2.1, ih.2.2.2]
    simp [hRow, hardRow, slRow, suRow, soft_none h r]

theorem cp_hPart {o : Ocp K} {k kp g gg hh pp hard sl su} {s : Cons K}
    (h : CP o k kp g gg hh pp hard sl su s) :
    CP o k kp (g ++ hs o k) gg (hh ++ hardHs o k) pp (hard ++ hardHs o k) (sl ++ slAt o k)
      (su ++ suAt o k) (hPart o k s) := by
  unfold hPart hs hardHs slAt suAt
  dsimp only
  by_cases h0 : 0 < (conData o k).nh
  · rw [if_pos h0]
    by_cases h1 : 0 < (conData o k).nsh
    · rw [if_pos h1]
      exact cp_softLoop _ h _ le_rfl
    · rw [if_neg h1]
      obtain ⟨e1, e2, e3, e4⟩ := hs_hard (d := conData o k) (by omega) k
        (List.range (conData o k).nh)
      rw [e1, e2, e3, e4, List.append_nil, List.append_nil]
      exact cp_appH h _ _ _ _
  · rw [if_neg h0]
    have : (conData o k).nh = 0 := by omega
    simpa [this] using h

theorem cp_linPart {o : Ocp K} {k kp g gg hh pp hard sl su} {s : Cons K}
    (h : CP o k kp g gg hh pp hard sl su s) :
    CP o k kp (g ++ lins o k) (gg ++ lins o k) hh pp (hard ++ lins o k) sl su (linPart o k s) := by
  unfold linPart lins
  by_cases h0 : 0 < conNg o k
  · rw [if_pos h0]
    exact cp_appG h _ _ _ _
  · rw [if_neg h0]
    have : conNg o k = 0 := by omega
    simpa [this] using h

theorem cp_phiPart {o : Ocp K} {k kp g gg hh pp hard sl su} {s : Cons K}
    (h : CP o k kp g gg hh pp hard sl su s) :
    CP o k kp (g ++ phis o k) gg hh (pp ++ phis o k) (hard ++ phis o k) sl su
      (phiPart o k s) := by
  unfold phiPart phis
  dsimp only
  by_cases h0 : 0 < (conData o k).nphi
  · rw [if_pos h0]
    exact cp_appPhi h _ _ _ _
  · rw [if_neg h0]
    have : (conData o k).nphi = 0 := by omega
    simpa [this] using h

theorem cp_next {o : Ocp K} {k kp g} {s : Cons K}
    (h : CP o k kp g (lins o k) (hardHs o k) (phis o k) (hardAt o k) (slAt o k) (suAt o k) s) :
    CP o (k + 1) kp g [] [] [] [] [] [] s := by
  obtain ⟨e1, e2, e3, e4, e5, e6⟩ := h.rest (k + 1) (by omega)
  refine ⟨h.hg, h.offG, h.pi, ?_, ?_, ?_, ?_, ?_, ?_, by rw [e1]; exact At.nil _,
    by rw [e2]; exact At.nil _, by rw [e3]; exact At.nil _, by rw [e4]; exact At.nil _,
    by rw [e5]; exact At.nil _, by rw [e6]; exact At.nil _, fun i hi => h.rest i (by omega)⟩
  all_goals
    intro i hi
    rcases Nat.lt_succ_iff_lt_or_eq.1 hi with hi | rfl
  · exact h.doneG i hi
  · exact h.curG
  · exact h.doneH i hi
  · exact h.curH
  · exact h.doneP i hi
  · exact h.curP
  · exact h.doneN i hi
  · exact h.curN
  · exact h.doneL i hi
  · exact h.curL
  · exact h.doneU i hi
  · exact h.curU

variable [Zero K]

theorem cp_step {o : Ocp K} {k : ℕ} {g} {s : Cons K}
    (h : CP o k (min k o.N) g [] [] [] [] [] [] s) :
    CP o (k + 1) (min (k + 1) o.N) (g ++ consAt o k) [] [] [] [] [] [] (conStage o s k) := by
  unfold conStage consAt
  apply cp_next
  by_cases hk : k < o.N
  · have e1 : min k o.N = k := by omega
    have e2 : min (k + 1) o.N = k + 1 := by omega
    rw [e1] at h
    rw [e2]
    have := cp_phiPart (cp_hPart (cp_linPart (cp_appDyn h (List.replicate o.nx (some 0))
      (List.replicate o.nx (some 0)))))
    simpa [hk, dynPart, hardAt, List.append_assoc, dyns] using this
  · have e1 : min k o.N = o.N := by omega
    have e2 : min (k + 1) o.N = o.N := by omega
    rw [e1] at h
    rw [e2]
    have := cp_phiPart (cp_hPart (cp_linPart h))
    simpa [hk, dynPart, hardAt, List.append_assoc, dyns] using this

theorem cinv (o : Ocp K) :
    CP o (o.N + 1) o.N ((List.range (o.N + 1)).flatMap (consAt o)) [] [] [] [] [] [] (cons o) := by
  have key : ∀ k, CP o k (min k o.N) ((List.range k).flatMap (consAt o)) [] [] [] [] [] []
      ((List.range k).foldl (conStage o) Cons.empty) := by
    intro k
    induction k with
    | zero =>
      refine ⟨rfl, rfl, ?_, ?_, ?_, ?_, ?_, ?_, ?_, rfl, rfl, rfl, rfl, rfl, rfl,
        fun _ _ => ⟨rfl, rfl, rfl, rfl, rfl, rfl⟩⟩
      · rw [Nat.zero_min]; exact Maps.zero _ _
      all_goals exact fun i hi => absurd hi (Nat.not_lt_zero _)
    | succ k ih =>
      rw [List.range_succ, List.foldl_append, List.flatMap_append]
      simpa using cp_step ih
  have := key (o.N + 1)
  rwa [show min (o.N + 1) o.N = o.N by omega] at this

end

end Acados.CasadiNlp
