import Verif.Spec.RegularityOcp
import Verif.Model.RegularityOcp
import Verif.Lemmas.CasadiNlpIter

/-! Helper lemmas for C104: the constraints of an optimal control problem. -/

namespace Acados.Regularity

open CasadiNlp (Sym Ocp At vars cons wAll gAll Proper)

/-- Reading through an index map. -/
theorem at_map {α β : Type*} {l : List α} {idx : List ℕ} {vals : List α} (h : At l idx vals)
    (F : ℕ → β) (G : α → β) (hFG : ∀ p a, l[p]? = some a → F p = G a) :
    idx.map F = vals.map G := by
  induction idx generalizing vals with
  | nil => cases vals with
    | nil => rfl
    | cons => simp [At] at h
  | cons p ps ih => cases vals with
    | nil => simp [At] at h
    | cons y ys =>
      simp only [At, List.map_cons, List.cons.injEq] at h
      rw [List.map_cons, List.map_cons, hFG p y h.1, ih h.2]

section
variable {K : Type*} [Field K] [LinearOrder K]

omit [Field K] [LinearOrder K] in
/-- Upper bounds of variables. -/
def uwOf (o : Ocp K) : Sym → Option K
  | .x i j => CasadiNlp.look (CasadiNlp.varData o i).idxbx (CasadiNlp.varData o i).ubx
      (CasadiNlp.varData o i).nbx j
  | .u _ j => CasadiNlp.look o.idxbu o.ubu o.nbu j
  | .sl _ _ => none
  | .su _ _ => none

omit [Field K] [LinearOrder K] in
theorem ub_map (o : Ocp K) (i : ℕ) :
    CasadiNlp.ubAt o i = (CasadiNlp.symsAt o i).map (uwOf o) := by
  unfold CasadiNlp.ubAt CasadiNlp.symsAt
  simp only [List.map_append]
  congr 1
  · congr 1
    · congr 1
      · rw [CasadiNlp.scatter_eq]; simp [CasadiNlp.xs, uwOf, Function.comp_def]
      · split
        · rw [CasadiNlp.scatter_eq]; simp [CasadiNlp.us, uwOf, Function.comp_def]
        · rfl
    · simp [CasadiNlp.sls, uwOf, Function.comp_def]
  · simp [CasadiNlp.sus, uwOf, Function.comp_def]

omit [LinearOrder K] in
theorem ubw_eq (o : Ocp K) (ho : Proper o) : (vars o).ubw = (wAll o).map (uwOf o) := by
  rw [(CasadiNlp.vinv o ho).ubw, wAll, List.map_flatMap]
  congr 1
  funext i
  exact ub_map o i

omit [LinearOrder K] in
/-- Upper bounds of expressions. -/
def ubOf (o : Ocp K) : CasadiNlp.Con → Option K
  | .dyn _ _ => some 0
  | .lin i r => some (CasadiNlp.conUg o i r)
  | .h i r => some ((CasadiNlp.conData o i).uh r)
  | .hl _ _ _ => none
  | .hu i r _ => some ((CasadiNlp.conData o i).uh r)
  | .phi i r => some ((CasadiNlp.conData o i).uphi r)

omit [LinearOrder K] in
theorem cub_map (o : Ocp K) (i : ℕ) :
    CasadiNlp.cubAt o i = (CasadiNlp.consAt o i).map (ubOf o) := by
  unfold CasadiNlp.cubAt CasadiNlp.consAt
  simp only [List.map_append]
  congr 1
  · congr 1
    · congr 1
      · split
        · simp [CasadiNlp.dyns, ubOf, Function.comp_def]
        · rfl
      · simp [CasadiNlp.lins, ubOf, Function.comp_def]
    · unfold CasadiNlp.hs
      rw [List.map_flatMap]
      congr 1
      funext r
      unfold CasadiNlp.hUp CasadiNlp.hRow
      split <;> simp [ubOf]
  · simp [CasadiNlp.phis, ubOf, Function.comp_def]

omit [LinearOrder K] in
theorem ubg_eq (o : Ocp K) : (cons o).ubg = (gAll o).map (ubOf o) := by
  rw [(CasadiNlp.cons_b o).2, gAll, List.map_flatMap]
  congr 1
  funext i
  exact cub_map o i

theorem conW_eq (o : Ocp K) (ho : Proper o) (v μ : Sym → K) (μg : CasadiNlp.Con → K)
    (D : CasadiNlp.Con → Sym → K) (tol : K) (p : ℕ) (s : Sym) (hp : (wAll o)[p]? = some s) :
    (ofNlp o ⟨vars o, cons o⟩ v μ μg D tol).conW p =
      ⟨CasadiNlp.lwOf o s, uwOf o s, v s, μ s, fun q => if (vars o).w[q]? = some s then 1 else 0⟩ := by
  have ew : (vars o).w = wAll o := (CasadiNlp.vinv o ho).p.hw
  have hg : (fun q => if q = p then (1 : K) else 0) =
      fun q => if (wAll o)[q]? = some s then 1 else 0 := by
    funext q
    have : q = p ↔ (wAll o)[q]? = some s := by
      constructor
      · rintro rfl; exact hp
      · intro hq
        obtain ⟨h1, h2⟩ := List.getElem?_eq_some_iff.1 hp
        obtain ⟨h3, h4⟩ := List.getElem?_eq_some_iff.1 hq
        exact (List.Nodup.getElem_inj_iff (CasadiNlp.nodup_w o (o.N + 1))).1 (h4.trans h2.symm)
    simp only [this]
  simp only [Nlp.conW, ofNlp, CasadiNlp.lbw_eq o ho, ubw_eq o ho, ew, List.getElem?_map, hp,
    Option.map_some, Option.getD_some, Option.join_some, hg]

theorem conG_eq (o : Ocp K) (v μ : Sym → K) (μg : CasadiNlp.Con → K)
    (D : CasadiNlp.Con → Sym → K) (tol : K) (p : ℕ) (c : CasadiNlp.Con)
    (hp : (gAll o)[p]? = some c) :
    (ofNlp o ⟨vars o, cons o⟩ v μ μg D tol).conG p =
      ⟨CasadiNlp.lbOf o c, ubOf o c, CasadiNlp.Con.eval o v c, μg c,
        fun q => (((vars o).w[q]?).map (D c)).getD 0⟩ := by
  have eg : (cons o).g = gAll o := (CasadiNlp.cinv o).hg
  simp only [Nlp.conG, ofNlp, CasadiNlp.lbg_eq o, ubg_eq o, eg, List.getElem?_map, hp,
    Option.map_some, Option.getD_some, Option.join_some]

omit [Field K] [LinearOrder K] in
theorem hard_filter (d : CasadiNlp.Stage K) (i : ℕ) (l : List ℕ) :
    l.flatMap (CasadiNlp.hardRow d i) =
      (l.filter (fun r => !(List.range d.nsh).any (fun s => d.idxsh s == r))).map
        (CasadiNlp.Con.h i) := by
  induction l with
  | nil => rfl
  | cons r t ih =>
    rw [List.flatMap_cons, ih]
    have hm : r ∈ CasadiNlp.softList d ↔
        (List.range d.nsh).any (fun s => d.idxsh s == r) = true := by
      rw [CasadiNlp.mem_softList, List.any_eq_true]
      simp
    unfold CasadiNlp.hardRow
    by_cases h : r ∈ CasadiNlp.softList d
    · simp [h, hm.1 h]
    · have h' : (List.range d.nsh).any (fun s => d.idxsh s == r) = false := by
        rw [Bool.eq_false_iff]; exact fun hc => h (hm.2 hc)
      simp [h, h']

/-- The constraints of a stage. -/
theorem cons_eq (o : Ocp K) (hN : 0 < o.N) (ho : Proper o) (v μ : Sym → K)
    (μg : CasadiNlp.Con → K) (D : CasadiNlp.Con → Sym → K) (tol : K) (k : ℕ) (hk : k ≤ o.N) :
    (ofNlp o ⟨vars o, cons o⟩ v μ μg D tol).cons k =
      ocpRows o (vars o).w v μ (CasadiNlp.Con.eval o v) μg D k := by
  have hv := CasadiNlp.vinv o ho
  have hc := CasadiNlp.cinv o
  have hd : CasadiNlp.conData o k = o.at k := CasadiNlp.conData_eq o hN k
  have hbx : ((ofNlp o ⟨vars o, cons o⟩ v μ μg D tol).lamBx k).map
      (ofNlp o ⟨vars o, cons o⟩ v μ μg D tol).conW =
      (List.range (o.at k).nbx).map (fun j => varRow (vars o).w v μ (.x k ((o.at k).idxbx j))
        ((o.at k).lbx j) ((o.at k).ubx j)) := by
    obtain ⟨idx, e1, e2⟩ := hv.p.bx.2 k (by omega)
    have : (ofNlp o ⟨vars o, cons o⟩ v μ μg D tol).lamBx k = idx := by simp [ofNlp, e1]
    rw [this, at_map e2 _ _ (conW_eq o ho v μ μg D tol)]
    unfold CasadiNlp.bxs
    rw [List.map_map]
    refine List.map_congr_left fun j hj => ?_
    have hj := List.mem_range.1 hj
    have h1 : CasadiNlp.lwOf o (.x k ((o.at k).idxbx j)) = some ((o.at k).lbx j) :=
      CasadiNlp.look_at hj (ho.bxInj k hk)
    have h2 : uwOf o (.x k ((o.at k).idxbx j)) = some ((o.at k).ubx j) :=
      CasadiNlp.look_at hj (ho.bxInj k hk)
    change (⟨CasadiNlp.lwOf o (.x k ((o.at k).idxbx j)), uwOf o (.x k ((o.at k).idxbx j)), _, _, _⟩ :
      Con K) = _
    rw [h1, h2]
    rfl
  have hgnl : ((ofNlp o ⟨vars o, cons o⟩ v μ μg D tol).lamGnl k).map
      (ofNlp o ⟨vars o, cons o⟩ v μ μg D tol).conG =
      (if k < o.N then (List.range o.ng).map (fun r => conRow (vars o).w (CasadiNlp.Con.eval o v) μg
          D (.lin k r) (o.lg r) (o.ug r))
        else (List.range o.nge).map (fun r => conRow (vars o).w (CasadiNlp.Con.eval o v) μg
          D (.lin k r) (o.lge r) (o.uge r))) ++
      ((List.range (o.at k).nh).filter (fun r => !(List.range (o.at k).nsh).any
          (fun s => (o.at k).idxsh s == r))).map
        (fun r => conRow (vars o).w (CasadiNlp.Con.eval o v) μg D (.h k r)
          ((o.at k).lh r) ((o.at k).uh r)) ++
      (List.range (o.at k).nphi).map (fun r => conRow (vars o).w (CasadiNlp.Con.eval o v) μg D
        (.phi k r) ((o.at k).lphi r) ((o.at k).uphi r)) := by
    have e2 := hc.doneN k (by omega)
    have : (ofNlp o ⟨vars o, cons o⟩ v μ μg D tol).lamGnl k = (cons o).lamGnl k := rfl
    rw [this, at_map e2 _ _ (conG_eq o v μ μg D tol)]
    unfold CasadiNlp.hardAt CasadiNlp.hardHs CasadiNlp.lins CasadiNlp.phis
    rw [hard_filter, hd]
    simp only [List.map_append, List.map_map, Function.comp_def, CasadiNlp.lbOf, ubOf, hd]
    congr 1
    congr 1
    by_cases h : k < o.N
    · simp [h, CasadiNlp.conNg, CasadiNlp.conLg, CasadiNlp.conUg, conRow]
    · simp [h, CasadiNlp.conNg, CasadiNlp.conLg, CasadiNlp.conUg, conRow]
  unfold Nlp.cons ocpRows
  have hNe : (ofNlp o ⟨vars o, cons o⟩ v μ μg D tol).N = o.N := rfl
  simp only [hNe]
  by_cases h : k < o.N
  · have hbu : ((ofNlp o ⟨vars o, cons o⟩ v μ μg D tol).lamBu k).map
        (ofNlp o ⟨vars o, cons o⟩ v μ μg D tol).conW =
        (List.range o.nbu).map (fun j => varRow (vars o).w v μ (.u k (o.idxbu j))
          (o.lbu j) (o.ubu j)) := by
      obtain ⟨idx, e1, e2⟩ := hv.p.bu.2 k (by omega)
      have : (ofNlp o ⟨vars o, cons o⟩ v μ μg D tol).lamBu k = idx := by simp [ofNlp, e1]
      rw [this, at_map e2 _ _ (conW_eq o ho v μ μg D tol)]
      unfold CasadiNlp.bus
      rw [List.map_map]
      refine List.map_congr_left fun j hj => ?_
      have hj := List.mem_range.1 hj
      have h1 : CasadiNlp.lwOf o (.u k (o.idxbu j)) = some (o.lbu j) :=
        CasadiNlp.look_at hj ho.buInj
      have h2 : uwOf o (.u k (o.idxbu j)) = some (o.ubu j) := CasadiNlp.look_at hj ho.buInj
      change (⟨CasadiNlp.lwOf o (.u k (o.idxbu j)), uwOf o (.u k (o.idxbu j)), _, _, _⟩ :
        Con K) = _
      rw [h1, h2]
      rfl
    have hpi : ((ofNlp o ⟨vars o, cons o⟩ v μ μg D tol).pi k).map
        (ofNlp o ⟨vars o, cons o⟩ v μ μg D tol).conG =
        (List.range o.nx).map (fun j => conRow (vars o).w (CasadiNlp.Con.eval o v) μg D
          (.dyn k j) 0 0) := by
      obtain ⟨idx, e1, e2⟩ := hc.pi.2 k h
      have : (ofNlp o ⟨vars o, cons o⟩ v μ μg D tol).pi k = idx := by simp [ofNlp, e1]
      rw [this, at_map e2 _ _ (conG_eq o v μ μg D tol)]
      unfold CasadiNlp.dyns
      rw [List.map_map]
      rfl
    simp only [h, if_true] at hgnl ⊢
    rw [hbx, hbu, hpi, hgnl]
    simp only [List.append_assoc]
  · simp only [h, if_false] at hgnl ⊢
    rw [hbx, hgnl]
    simp only [List.append_assoc, List.nil_append]

omit [LinearOrder K] in
/-- The columns of a stage are states and controls of the stage. -/
theorem cols_mem (o : Ocp K) (ho : Proper o) (v μ : Sym → K)
    (μg : CasadiNlp.Con → K) (D : CasadiNlp.Con → Sym → K) (tol : K) (j : ℕ) (hj : j ≤ o.N)
    (q : ℕ) (hq : q ∈ (ofNlp o ⟨vars o, cons o⟩ v μ μg D tol).cols j) :
    ∃ s, (vars o).w[q]? = some s ∧ symStage s = j := by
  have hv := CasadiNlp.vinv o ho
  have ew : (vars o).w = wAll o := hv.p.hw
  have key : ∀ {l : List Sym} {idx : List ℕ}, At (wAll o) idx l → (∀ s ∈ l, symStage s = j) →
      q ∈ idx → ∃ s, (vars o).w[q]? = some s ∧ symStage s = j := by
    intro l idx hat hl hm
    have : (wAll o)[q]? ∈ l.map some := by
      rw [← hat]
      exact List.mem_map.2 ⟨q, hm, rfl⟩
    obtain ⟨s, hs, he⟩ := List.mem_map.1 this
    exact ⟨s, by rw [ew, he], hl s hs⟩
  obtain ⟨ix, x1, x2⟩ := hv.p.x.2 j (by omega)
  have hx : (ofNlp o ⟨vars o, cons o⟩ v μ μg D tol).xInW j = ix := by simp [ofNlp, x1]
  have hxs : ∀ s ∈ CasadiNlp.xs o j, symStage s = j := by
    intro s hs
    obtain ⟨i, -, rfl⟩ := List.mem_map.1 hs
    rfl
  unfold Nlp.cols at hq
  have hNe : (ofNlp o ⟨vars o, cons o⟩ v μ μg D tol).N = o.N := rfl
  rw [hNe, hx] at hq
  by_cases h : j < o.N
  · rw [if_pos h] at hq
    rcases List.mem_append.1 hq with hq | hq
    · exact key x2 hxs hq
    · obtain ⟨iu, u1, u2⟩ := hv.p.u.2 j (by omega)
      have hu : (ofNlp o ⟨vars o, cons o⟩ v μ μg D tol).uInW j = iu := by simp [ofNlp, u1]
      rw [hu] at hq
      refine key u2 (fun s hs => ?_) hq
      obtain ⟨i, -, rfl⟩ := List.mem_map.1 hs
      rfl
  · rw [if_neg h] at hq
    exact key x2 hxs hq

end

end Acados.Regularity
