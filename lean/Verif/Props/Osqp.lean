import Verif.Lemmas.Osqp2
import Verif.Props.Clarabel
import Mathlib.Tactic.FieldSimp
/-!
# C47: the QP handed to OSQP is the stage-wise QP

`problem q mem` is what OSQP works on after the interface has written the QP `q` into its memory, `fillOut` what the interface
makes of the solution.  `Kkt` (Spec/OcpQp) and `BoxQp.Kkt` (Spec/Csc) are the two sets of optimality conditions.
-/
namespace Acados.SparseQp.Osqp
open Acados.QpScal Acados.Csc Finset
open Acados.SparseQp.Clarabel (Supported SameShape part dot dot_append dot_one dot_nil pick lhs_congr sl_congr eye_row nodup_map_add)
variable {K : Type*} [Field K] [LinearOrder K]

/-! ## what the solver reads -/

/-- a first call, or a later one whose index arrays were made for the same shape -/
def Ready (q : Qp K) (mem : Mem K) : Prop := mem.first = true ∨ mem.P = hessStructure q ∧ mem.A = conStructure q

theorem update_P (q : Qp K) (mem : Mem K) (h : Ready q mem) :
    (updateMemory q mem).P = hessStructure q ∧ (updateMemory q mem).A = conStructure q := by
  unfold updateMemory
  rcases h with h | h
  · simp [h]
  · by_cases hf : mem.first = true <;> simp [hf, h.1, h.2]

theorem problem_A (q : Qp K) (mem : Mem K) (h : Ready q mem) : (problem q (updateMemory q mem)).A = mat q (oR q) (oV q) := by
  rw [← con_mat q]
  show (⟨(updateMemory q mem).A.p, (updateMemory q mem).A.i, conData q⟩ : Csc K) = _
  rw [(update_P q mem h).2]

theorem problem_P (q : Qp K) (mem : Mem K) (h : Ready q mem) : (problem q (updateMemory q mem)).P = mat q (hR q) (hV q) := by
  rw [← hess_mat q]
  show (⟨(updateMemory q mem).P.p, (updateMemory q mem).P.i, hessData q⟩ : Csc K) = _
  rw [(update_P q mem h).1]

theorem problem_lu (q : Qp K) (mem : Mem K) :
    (problem q (updateMemory q mem)).l = (updateBounds q mem.l mem.u).l ∧ (problem q (updateMemory q mem)).u = (updateBounds q mem.l mem.u).u := by
  unfold problem updateMemory
  by_cases hf : mem.first = true <;> simp [hf]

/-! ## the matrices -/

theorem hR_sorted (q : Qp K) {k i : Nat} (hk : k ≤ q.N) (hi : i < nv q k) :
    (∀ r ∈ hR q k i, r < numVars q) ∧ (hR q k i).Pairwise (· < ·) := by
  have hb := off_block (nv q) (show k < q.N + 1 by omega)
  have hn := nv_eq q k
  unfold hR numVars
  split
  · refine ⟨?_, map_sorted _ List.pairwise_lt_range _ fun a _ b _ h => by omega⟩
    intro r hr
    obtain ⟨ii, hii, rfl⟩ := List.mem_map.1 hr
    have := List.mem_range.1 hii
    omega
  · refine ⟨?_, by simp⟩
    intro r hr
    rw [List.mem_singleton.1 hr]; omega

theorem sorted_nodup {l : List Nat} (h : l.Pairwise (· < ·)) : l.Nodup := h.imp fun h => Nat.ne_of_lt h

theorem mat_sorted (q : Qp K) (R : Nat → Nat → List Nat) (V : Nat → Nat → List K)
    (h : ∀ k ≤ q.N, ∀ i < nv q k, (R k i).length = (V k i).length) (hs : ∀ k ≤ q.N, ∀ i < nv q k, (R k i).Pairwise (· < ·)) :
    (mat q R V).Sorted (numVars q) := by
  intro c hc
  obtain ⟨k, hk, i, hi, e⟩ := off_cases (nv q) (q.N + 1) c hc
  rw [e, mat_col q R V h (by omega) hi, List.map_fst_zip (by rw [h k (by omega) i hi])]
  exact hs k (by omega) i hi

/-- C47: both matrices are well-formed compressed-column matrices with sorted columns. -/
theorem C47_matrices_valid (q : Qp K) (mem : Mem K) (hr : Ready q mem) (hf : Fits q) :
    (problem q (updateMemory q mem)).A.Valid (numConstr q) (numVars q) ∧ (problem q (updateMemory q mem)).A.Sorted (numVars q) ∧
    (problem q (updateMemory q mem)).P.Valid (numVars q) (numVars q) ∧ (problem q (updateMemory q mem)).P.Sorted (numVars q) := by
  rw [problem_A q mem hr, problem_P q mem hr]
  exact ⟨mat_valid q _ _ (fun k _ i _ => olen q k i) _ fun k hk i hi => ⟨oR_lt q hf hk hi, sorted_nodup (oR_sorted q hf hk hi)⟩,
    mat_sorted q _ _ (fun k _ i _ => olen q k i) fun k hk i hi => oR_sorted q hf hk hi,
    mat_valid q _ _ (fun k _ i _ => hlen q k i) _ fun k hk i hi => ⟨(hR_sorted q hk hi).1, sorted_nodup (hR_sorted q hk hi).2⟩,
    mat_sorted q _ _ (fun k _ i _ => hlen q k i) fun k hk i hi => (hR_sorted q hk hi).2⟩

/-- C47, memory: the entries written fit into the arrays that are allocated for them. -/
theorem C47_fits (q : Qp K) (hf : Fits q) :
    (hessStructure q).i.length ≤ nnzmaxP q ∧ (hessData q).length ≤ nnzmaxP q ∧
    (conStructure q).i.length ≤ nnzmaxA q ∧ (conData q).length ≤ nnzmaxA q :=
  ⟨(hess_lengths q).1, (hess_lengths q).2 ▸ (hess_lengths q).1, con_nnz q hf, con_lengths q ▸ con_nnz q hf⟩

/-! ## the vectors seen by the two problems -/

section
variable (q : Qp K) (old : Sol K) (x y : Nat → K)

theorem fill_ux {k i : Nat} (hk : k ≤ q.N) (hi : i < nv q k) : (fillOut q old x y).ux k i = part q x k i := if_pos ⟨hk, hi⟩
theorem fill_pi {k i : Nat} (hk : k < q.N) (hi : i < q.nx (k + 1)) : (fillOut q old x y).pi k i = y (addr q (.dyn k i)) :=
  if_pos ⟨hk, hi⟩

theorem fill_low (wf : WF q) {k r : Nat} (hk : k ≤ q.N) (hr : r < (q.st k).m) :
    (fillOut q old x y).lam k r = if soft q k r = true then - y (addr q (.con k r)) else
      if y (addr q (.con k r)) ≤ 0 then - y (addr q (.con k r)) else 0 := by
  show (if k ≤ q.N ∧ r < (q.st k).nb + (q.st k).ng then _ else _) = _
  rw [if_pos ⟨hk, hr⟩]
  by_cases hs : soft q k r = true
  · rw [if_neg fun h => (hard_iff q wf hr).1 h hs, if_pos hs]; rfl
  · rw [if_pos ((hard_iff q wf hr).2 hs), if_neg hs]; rfl

theorem fill_upp (wf : WF q) {k r : Nat} (hk : k ≤ q.N) (hr : r < (q.st k).m) :
    (fillOut q old x y).lam k ((q.st k).m + r) = if soft q k r = true then y (addr q (.con k ((q.st k).m + cnt q k r))) else
      if y (addr q (.con k r)) ≤ 0 then 0 else y (addr q (.con k r)) := by
  have hm : (q.st k).m = (q.st k).nb + (q.st k).ng := rfl
  show (if k ≤ q.N ∧ (q.st k).m + r < (q.st k).nb + (q.st k).ng then _ else
    if k ≤ q.N ∧ (q.st k).m + r < 2 * ((q.st k).nb + (q.st k).ng) then _ else _) = _
  rw [if_neg (by omega), if_pos (by omega), show (q.st k).m + r - ((q.st k).nb + (q.st k).ng) = r by omega]
  by_cases hs : soft q k r = true
  · rw [if_neg fun h => (hard_iff q wf hr).1 h hs, if_pos hs]; rfl
  · rw [if_pos ((hard_iff q wf hr).2 hs), if_neg hs]; rfl

theorem fill_slk {k s : Nat} (hk : k ≤ q.N) (hs : s < 2 * (q.st k).ns) :
    (fillOut q old x y).lam k (2 * (q.st k).m + s) = - y (addr q (.slk k s)) := by
  have hm : (q.st k).m = (q.st k).nb + (q.st k).ng := rfl
  show (if k ≤ q.N ∧ 2 * (q.st k).m + s < (q.st k).nb + (q.st k).ng then _ else
    if k ≤ q.N ∧ 2 * (q.st k).m + s < 2 * ((q.st k).nb + (q.st k).ng) then _ else
    if k ≤ q.N ∧ 2 * (q.st k).m + s < 2 * ((q.st k).nb + (q.st k).ng) + 2 * (q.st k).ns then _ else _) = _
  rw [if_neg (by omega), if_neg (by omega), if_pos (by omega), show 2 * (q.st k).m + s - 2 * ((q.st k).nb + (q.st k).ng) = s by omega]
  rfl

theorem fill_mu (wf : WF q) {k r : Nat} (hk : k ≤ q.N) (hr : r < (q.st k).m) :
    (fillOut q old x y).lam k r - (fillOut q old x y).lam k ((q.st k).m + r) = - mu q y k r := by
  rw [fill_low q old x y wf hk hr, fill_upp q old x y wf hk hr, mu]
  by_cases hs : soft q k r = true
  · simp only [hs, if_true]; ring
  · simp only [hs]
    by_cases hy : y (addr q (.con k r)) ≤ 0 <;> simp [hy]

/-! ## stationarity -/

theorem stat_ux (hs : Supported q) (hf : Fits q) (mem : Mem K) (hrd : Ready q mem) {k i : Nat} (hk : k ≤ q.N) (hi : i < (q.st k).nux) :
    (problem q (updateMemory q mem)).P.symMul (numVars q) x (off (nv q) k + i) +
      (problem q (updateMemory q mem)).q (off (nv q) k + i) +
      (problem q (updateMemory q mem)).A.mulTr (numConstr q) y (off (nv q) k + i)
      = lagUx q (fillOut q old x y) k i := by
  have hx := hs.wf.nux k
  have hn := nv_eq q k
  have hi' : i < nv q k := by omega
  have hg : (problem q (updateMemory q mem)).q (off (nv q) k + i) = (q.st k).g i := gradient_get q hk hi'
  rw [problem_A q mem hrd, problem_P q mem hrd, hg, mulTr_eq q hf y hk hi', hess_mul q hs.sym x hk hi', if_pos (by omega)]
  unfold lagUx
  have e1 : ∑ c ∈ range (q.st k).nux, (q.st k).H i c * (fillOut q old x y).ux k c
      = ∑ j ∈ range (q.nx k + q.nu k), (q.st k).H i j * x (off (nv q) k + j) := by
    rw [show q.nx k + q.nu k = (q.st k).nux by omega]
    refine sum_congr rfl fun c hc => ?_
    have := Finset.mem_range.1 hc
    rw [fill_ux q old x y hk (by omega)]; rfl
  have e2 : (if k < q.N then ∑ c ∈ range (q.nx (k + 1)), (q.st k).BAbt i c * (fillOut q old x y).pi k c else 0)
      = if k < q.N then ∑ j ∈ range (q.nx (k + 1)), (q.st k).BAbt i j * y (addr q (.dyn k j)) else 0 := by
    split
    · rename_i hN
      exact sum_congr rfl fun c hc => by rw [fill_pi q old x y hN (Finset.mem_range.1 hc)]
    · rfl
  have hm : (q.st k).m = (q.st k).nb + (q.st k).ng := rfl
  have e3 : (∑ j ∈ range (q.st k).nb, if (q.st k).idxb j = i then
      (fillOut q old x y).lam k j - (fillOut q old x y).lam k ((q.st k).m + j) else 0)
      = - ∑ j ∈ range (q.st k).nb, if (q.st k).idxb j = i then mu q y k j else 0 := by
    rw [← sum_neg_distrib]
    refine sum_congr rfl fun j hj => ?_
    have := Finset.mem_range.1 hj
    rw [fill_mu q old x y hs.wf hk (by omega)]
    split <;> simp
  have e4 : (∑ j ∈ range (q.st k).ng, (q.st k).DCt i j *
      ((fillOut q old x y).lam k ((q.st k).nb + j) - (fillOut q old x y).lam k ((q.st k).m + ((q.st k).nb + j))))
      = - ∑ j ∈ range (q.st k).ng, (q.st k).DCt i j * mu q y k ((q.st k).nb + j) := by
    rw [← sum_neg_distrib]
    refine sum_congr rfl fun j hj => ?_
    have := Finset.mem_range.1 hj
    rw [fill_mu q old x y hs.wf hk (by omega)]
    ring
  rw [e1, e2, e3, e4]
  have e5 : dot (place q (oL q k i)) y = dot (place q (varL q k i)) y -
      (if 0 < k ∧ q.nu k ≤ i then (fillOut q old x y).pi (k - 1) (i - q.nu k) else 0) := by
    unfold oL pick
    rw [if_pos (by omega), if_pos (by omega)]
    by_cases hu : i < q.nu k
    · rw [if_pos hu, if_neg (by omega), sub_zero]
    · rw [if_neg hu, place_append, dot_append, show q.nu k + (i - q.nu k) = i by omega]
      unfold eyeL
      by_cases h0 : 0 < k
      · rw [if_pos h0, if_pos ⟨h0, by omega⟩, fill_pi q old x y (by omega) (by rw [Nat.sub_add_cancel h0]; omega)]
        simp [place, dot]
        ring
      · rw [if_neg h0, if_neg (by omega)]; simp [place, dot]
  rw [e5, dot_var q hs.inj]
  ring

theorem stat_sl (hs : Supported q) (hf : Fits q) (mem : Mem K) (hrd : Ready q mem) {k i : Nat} (hk : k ≤ q.N) (hi : i < (q.st k).ns) :
    (problem q (updateMemory q mem)).P.symMul (numVars q) x (off (nv q) k + ((q.st k).nux + i)) +
      (problem q (updateMemory q mem)).q (off (nv q) k + ((q.st k).nux + i)) +
      (problem q (updateMemory q mem)).A.mulTr (numConstr q) y (off (nv q) k + ((q.st k).nux + i))
      = lagSl q (fillOut q old x y) k i := by
  have hx := hs.wf.nux k
  have hn := nv_eq q k
  have hi' : (q.st k).nux + i < nv q k := by omega
  have hg : (problem q (updateMemory q mem)).q (off (nv q) k + ((q.st k).nux + i)) = (q.st k).g ((q.st k).nux + i) :=
    gradient_get q hk hi'
  rw [problem_A q mem hrd, problem_P q mem hrd, hg, mulTr_eq q hf y hk hi', hess_mul q hs.sym x hk hi', if_neg (by omega)]
  unfold lagSl oL pick
  rw [if_pos (by omega), if_neg (by omega), slL, place_append, dot_append, dot_softL, fill_ux q old x y hk hi', fill_slk q old x y hk (by omega),
    show (q.st k).nux + i - (q.nx k + q.nu k) = i by omega, show (q.st k).nux + i - (q.nu k + q.nx k) = i by omega, part]
  have e : (∑ r ∈ range (q.st k).m, if (q.st k).idxs r = (i : Int) then (fillOut q old x y).lam k r else 0)
      = - ∑ r ∈ range (q.st k).m, if (q.st k).idxs r = (i : Int) then y (addr q (.con k r)) else 0 := by
    rw [← sum_neg_distrib]
    refine sum_congr rfl fun r hr => ?_
    by_cases h : (q.st k).idxs r = (i : Int)
    · rw [if_pos h, if_pos h, fill_low q old x y hs.wf hk (Finset.mem_range.1 hr), if_pos ((soft_iff q k r).2 (by rw [h]; omega))]
    · rw [if_neg h, if_neg h, neg_zero]
  rw [e]
  simp only [place, dot, List.map_cons, List.map_nil, List.sum_cons, List.sum_nil]
  ring

theorem stat_su (hs : Supported q) (hf : Fits q) (mem : Mem K) (hrd : Ready q mem) {k i : Nat} (hk : k ≤ q.N) (hi : i < (q.st k).ns) :
    (problem q (updateMemory q mem)).P.symMul (numVars q) x (off (nv q) k + ((q.st k).nux + ((q.st k).ns + i))) +
      (problem q (updateMemory q mem)).q (off (nv q) k + ((q.st k).nux + ((q.st k).ns + i))) +
      (problem q (updateMemory q mem)).A.mulTr (numConstr q) y (off (nv q) k + ((q.st k).nux + ((q.st k).ns + i)))
      = lagSu q (fillOut q old x y) k i := by
  have hx := hs.wf.nux k
  have hn := nv_eq q k
  have hi' : (q.st k).nux + ((q.st k).ns + i) < nv q k := by omega
  have hg : (problem q (updateMemory q mem)).q (off (nv q) k + ((q.st k).nux + ((q.st k).ns + i)))
      = (q.st k).g ((q.st k).nux + ((q.st k).ns + i)) := gradient_get q hk hi'
  rw [problem_A q mem hrd, problem_P q mem hrd, hg, mulTr_eq q hf y hk hi', hess_mul q hs.sym x hk hi', if_neg (by omega)]
  unfold lagSu oL pick
  rw [if_neg (by omega), suL, place_append, dot_append, dot_softL, fill_ux q old x y hk hi', fill_slk q old x y hk (by omega),
    show (q.st k).nux + ((q.st k).ns + i) - (q.nx k + q.nu k) = (q.st k).ns + i by omega,
    show (q.st k).nux + ((q.st k).ns + i) - (q.nu k + q.nx k + (q.st k).ns) = i by omega, part]
  have e : (∑ r ∈ range (q.st k).m, if (q.st k).idxs r = (i : Int) then (fillOut q old x y).lam k ((q.st k).m + r) else 0)
      = ∑ r ∈ range (q.st k).m, if (q.st k).idxs r = (i : Int) then y (addr q (.con k ((q.st k).m + cnt q k r))) else 0 := by
    refine sum_congr rfl fun r hr => ?_
    by_cases h : (q.st k).idxs r = (i : Int)
    · rw [if_pos h, if_pos h, fill_upp q old x y hs.wf hk (Finset.mem_range.1 hr), if_pos ((soft_iff q k r).2 (by rw [h]; omega))]
    · rw [if_neg h, if_neg h]
  rw [e]
  simp only [place, dot, List.map_cons, List.map_nil, List.sum_cons, List.sum_nil]
  ring

/-! ## rows -/

/-- the rows reserved for softened constraints that no softened constraint uses -/
def Unused (q : Qp K) (r : Nat) : Prop :=
  ∃ k ≤ q.N, ∃ c < (q.st k).ns, cnt q k (q.st k).m ≤ c ∧ r = addr q (.con k ((q.st k).m + c))

theorem cnt_surj (q : Qp K) (k n : Nat) {c : Nat} (hc : c < cnt q k n) : ∃ r < n, soft q k r = true ∧ cnt q k r = c := by
  induction n with
  | zero => exact absurd hc (Nat.not_lt_zero _)
  | succ n ih =>
    rw [cnt_succ] at hc
    by_cases h : c < cnt q k n
    · obtain ⟨r, h1, h2⟩ := ih h
      exact ⟨r, by omega, h2⟩
    · by_cases hs : soft q k n = true
      · rw [if_pos hs] at hc
        exact ⟨n, Nat.lt_succ_self _, hs, by omega⟩
      · rw [if_neg hs] at hc; omega

/-- every row is one of five kinds -/
theorem row_cases {r : Nat} (hr : r < numConstr q) :
    (∃ k < q.N, ∃ j < q.nx (k + 1), r = addr q (.dyn k j)) ∨ (∃ k ≤ q.N, ∃ j < (q.st k).m, r = addr q (.con k j)) ∨
    (∃ k ≤ q.N, ∃ j < (q.st k).m, soft q k j = true ∧ r = addr q (.con k ((q.st k).m + cnt q k j))) ∨ Unused q r ∨
    (∃ k ≤ q.N, ∃ s < 2 * (q.st k).ns, r = addr q (.slk k s)) := by
  obtain ⟨R, hR, rfl⟩ := addr_surj q hr
  cases R with
  | dyn k j => exact Or.inl ⟨k, hR.1, j, hR.2, rfl⟩
  | con k j =>
    have h1 : conLen q k = (q.st k).m + (q.st k).ns := rfl
    have h2 := hR.2
    by_cases hj : j < (q.st k).m
    · exact Or.inr (Or.inl ⟨k, hR.1, j, hj, rfl⟩)
    · by_cases hc : j - (q.st k).m < cnt q k (q.st k).m
      · obtain ⟨r, hr, hs, e⟩ := cnt_surj q k _ hc
        exact Or.inr (Or.inr (Or.inl ⟨k, hR.1, r, hr, hs, by rw [e]; congr 2; omega⟩))
      · exact Or.inr (Or.inr (Or.inr (Or.inl ⟨k, hR.1, j - (q.st k).m, by omega, by omega, by congr 2; omega⟩)))
  | slk k s => exact Or.inr (Or.inr (Or.inr (Or.inr ⟨k, hR.1, s, hR.2, rfl⟩)))

theorem gaps (hs : Supported q) {k : Nat} (hk : k ≤ q.N) :
    (∀ r < (q.st k).m, (q.st k).gapL ((fillOut q old x y).ux k) r = (q.st k).gapL (part q x k) r) ∧
    (∀ r < (q.st k).m, (q.st k).gapU ((fillOut q old x y).ux k) r = (q.st k).gapU (part q x k) r) ∧
    (∀ s < 2 * (q.st k).ns, (q.st k).gapS ((fillOut q old x y).ux k) s = (q.st k).gapS (part q x k) s) := by
  have hu : ∀ i < nv q k, (fillOut q old x y).ux k i = part q x k i := fun i hi => fill_ux q old x y hk hi
  refine ⟨?_, ?_, ?_⟩
  · intro r hr
    unfold Stage.gapL
    rw [lhs_congr q hs.wf hu hr, (sl_congr q hs.wf hu hr).1]
  · intro r hr
    unfold Stage.gapU
    rw [lhs_congr q hs.wf hu hr, (sl_congr q hs.wf hu hr).2]
  · intro s hs'
    unfold Stage.gapS
    have := nv_eq q k
    rw [hu _ (by rw [hs.wf.nux k]; omega)]

theorem dyn_iff (hs : Supported q) (hf : Fits q) {k j : Nat} (hk : k < q.N) (hj : j < q.nx (k + 1)) :
    ((∑ r ∈ range (q.st k).nux, (q.st k).BAbt r j * (fillOut q old x y).ux k r) + (q.st k).b j
        = (fillOut q old x y).ux (k + 1) (q.nu (k + 1) + j)) ↔
      (mat q (oR q) (oV q)).mulVec (numVars q) x (addr q (.dyn k j)) = - (q.st k).b j := by
  rw [fill_ux q old x y (show k + 1 ≤ q.N from hk) (by have := nv_eq q (k + 1); omega), mulVec_dyn q hf x hk hj, ← hs.wf.nux k]
  have : ∑ r ∈ range (q.st k).nux, (q.st k).BAbt r j * (fillOut q old x y).ux k r
      = ∑ r ∈ range (q.st k).nux, (q.st k).BAbt r j * part q x k r := sum_congr rfl fun r hr => by
    have := Finset.mem_range.1 hr
    rw [fill_ux q old x y (show k ≤ q.N by omega) (by have := nv_eq q k; have := hs.wf.nux k; omega)]
  rw [this]
  constructor <;> intro h <;> linear_combination h

end

section kkt
variable (q : Qp K) (old : Sol K) (x y : Nat → K)

/-- the limits of a row hold -/
def InBox (D : BoxQp K) (x : Nat → K) (r : Nat) : Prop :=
  (∀ l, D.l r = some l → l ≤ D.A.mulVec D.n x r) ∧ (∀ u, D.u r = some u → D.A.mulVec D.n x r ≤ u)

/-- C47: a point is feasible for the problem handed to OSQP exactly if it is feasible for the stage-wise QP, provided that
the upper limits left in the unused rows allow zero (they do for memory initialised with zero). -/
theorem C47_feasible (hs : Supported q) (hf : Fits q) (mem : Mem K) (hrd : Ready q mem) [IsOrderedRing K] :
    (∀ r < numConstr q, InBox (problem q (updateMemory q mem)) x r) ↔
    Feasible q (fillOut q old x y).ux ∧ (∀ r, Unused q r → ∀ u, mem.u r = some u → 0 ≤ u) := by
  have hm1 : ∀ k ≤ q.N, ∀ r, (q.st k).mask r ≠ 0 := fun k hk r => by rw [hs.mask k hk r]; exact one_ne_zero
  obtain ⟨b1, b2, b3, b4, b5, b6⟩ := updateBounds_spec q hs.wf hf mem.l mem.u
  have hlu := problem_lu q mem
  have hA := problem_A q mem hrd
  have hn : (problem q (updateMemory q mem)).n = numVars q := rfl
  unfold InBox
  rw [hlu.1, hlu.2, hA, hn]
  constructor
  · intro h
    refine ⟨?_, ?_⟩
    · constructor
      case dyn =>
        intro k hk j hj
        have h2 := h _ (addr_lt q (R := .dyn k j) ⟨hk, hj⟩)
        exact (dyn_iff q old x y hs hf hk hj).2 (le_antisymm (h2.2 _ (b1 k hk j hj).2) (h2.1 _ (b1 k hk j hj).1))
      case low =>
        intro k hk r hr _
        have h2 := (h _ (addr_lt q (ok_con q hk hr))).1 _ (b2 k hk r hr).1
        rw [mulVec_con q hs.wf hf hs.inj x hk hr] at h2
        rw [(gaps q old x y hs hk).1 r hr, Stage.gapL]
        linarith
      case upp =>
        intro k hk r hr _
        rw [(gaps q old x y hs hk).2.1 r hr, Stage.gapU]
        by_cases hsr : soft q k r = true
        · have h2 := (h _ (addr_lt q (ok_rep q hf hk hr hsr))).2 _ (b4 k hk r hr hsr)
          rw [mulVec_rep q hs.wf hf hs.inj x hk hr hsr] at h2
          linarith
        · have h3 := (b2 k hk r hr).2
          rw [if_neg hsr] at h3
          have h2 := (h _ (addr_lt q (ok_con q hk hr))).2 _ h3
          rw [mulVec_con q hs.wf hf hs.inj x hk hr] at h2
          have h4 : ¬ 0 ≤ (q.st k).idxs r := fun h => hsr ((soft_iff q k r).2 h)
          simp only [Stage.sl, Stage.su, if_neg h4] at h2 ⊢
          linarith
      case slk =>
        intro k hk s hs' _
        have h2 := (h _ (addr_lt q (R := .slk k s) ⟨hk, hs'⟩)).1 _ (b6 k hk s hs').1
        rw [mulVec_slk q hs.wf hf x hk hs'] at h2
        rw [(gaps q old x y hs hk).2.2 s hs', Stage.gapS]
        linarith
    · rintro r ⟨k, hk, c, hc, hcc, rfl⟩ u hu
      have h1 : conLen q k = (q.st k).m + (q.st k).ns := rfl
      have h2 := (h _ (addr_lt q (R := .con k ((q.st k).m + c)) ⟨hk, by omega⟩)).2 u (by rw [b5 k hk c hc hcc]; exact hu)
      rwa [mulVec_unused q hf x hk hcc hc] at h2
  · rintro ⟨h, hun⟩ r hr
    rcases row_cases q hr with ⟨k, hk, j, hj, rfl⟩ | ⟨k, hk, j, hj, rfl⟩ | ⟨k, hk, j, hj, hsj, rfl⟩ | hu | ⟨k, hk, s, hs', rfl⟩
    · have e := (dyn_iff q old x y hs hf hk hj).1 (h.dyn k hk j hj)
      rw [e, (b1 k hk j hj).1, (b1 k hk j hj).2]
      exact ⟨fun l hl => by cases hl; exact le_refl _, fun l hl => by cases hl; exact le_refl _⟩
    · have e1 := h.low k hk j hj (hm1 k hk _)
      have e2 := h.upp k hk j hj (hm1 k hk _)
      rw [(gaps q old x y hs hk).1 j hj, Stage.gapL] at e1
      rw [(gaps q old x y hs hk).2.1 j hj, Stage.gapU] at e2
      rw [(b2 k hk j hj).1, (b2 k hk j hj).2, mulVec_con q hs.wf hf hs.inj x hk hj]
      refine ⟨fun l hl => by cases hl; linarith, fun u hu => ?_⟩
      by_cases hsr : soft q k j = true
      · rw [if_pos hsr] at hu; cases hu
      · rw [if_neg hsr] at hu
        cases hu
        have h4 : ¬ 0 ≤ (q.st k).idxs j := fun h => hsr ((soft_iff q k j).2 h)
        simp only [Stage.sl, Stage.su, if_neg h4] at e2 ⊢
        linarith
    · have e2 := h.upp k hk j hj (hm1 k hk _)
      rw [(gaps q old x y hs hk).2.1 j hj, Stage.gapU] at e2
      rw [b3 k hk _ (by have := cnt_lt q hj hsj; have := hf k hk; omega), b4 k hk j hj hsj, mulVec_rep q hs.wf hf hs.inj x hk hj hsj]
      exact ⟨fun l hl => (nomatch hl), fun u hu => by cases hu; linarith⟩
    · obtain ⟨k, hk, c, hc, hcc, rfl⟩ := hu
      rw [b3 k hk c hc, b5 k hk c hc hcc, mulVec_unused q hf x hk hcc hc]
      exact ⟨fun l hl => (nomatch hl), fun u hu => hun _ ⟨k, hk, c, hc, hcc, rfl⟩ u hu⟩
    · have e2 := h.slk k hk s hs' (hm1 k hk _)
      rw [(gaps q old x y hs hk).2.2 s hs', Stage.gapS] at e2
      rw [(b6 k hk s hs').1, (b6 k hk s hs').2, mulVec_slk q hs.wf hf x hk hs']
      exact ⟨fun l hl => by cases hl; linarith, fun u hu => by cases hu⟩

/-- sign and complementarity conditions of a row -/
def Signs (D : BoxQp K) (x y : Nat → K) (r : Nat) : Prop :=
  (y r < 0 → D.l r = some (D.A.mulVec D.n x r)) ∧ (0 < y r → D.u r = some (D.A.mulVec D.n x r))

theorem box_kkt (D : BoxQp K) (x y : Nat → K) : D.Kkt x y ↔
    (∀ c < D.n, D.P.symMul D.n x c + D.q c + D.A.mulTr D.m y c = 0) ∧ (∀ r < D.m, InBox D x r) ∧ (∀ r < D.m, Signs D x y r) :=
  ⟨fun h => ⟨h.stat, fun r hr => ⟨h.low r hr, h.upp r hr⟩, fun r hr => ⟨h.neg r hr, h.pos r hr⟩⟩,
   fun h => ⟨h.1, fun r hr => (h.2.1 r hr).1, fun r hr => (h.2.1 r hr).2, fun r hr => (h.2.2 r hr).1, fun r hr => (h.2.2 r hr).2⟩⟩

/-- C47: `(x, y)` satisfies the optimality conditions of the problem handed to OSQP if and only if the iterate that
`fill_in_qp_out` makes of it satisfies the optimality conditions of the stage-wise QP, multipliers included, and the rows
that no softened constraint uses (`Unused`) are consistent with whatever limit they have in memory.
Missing from the full claim: QPs with one-sided constraints (`C47_mask_ignored`), with two bounds on one variable, and those
with more softened constraints than slacks (`C47_overflow`). -/
theorem C47_kkt_partial (hs : Supported q) (hf : Fits q) (mem : Mem K) (hrd : Ready q mem) [IsStrictOrderedRing K] :
    (problem q (updateMemory q mem)).Kkt x y ↔ Kkt q (fillOut q old x y) ∧
      ∀ r, Unused q r → (∀ u, mem.u r = some u → 0 ≤ u) ∧ 0 ≤ y r ∧ (0 < y r → mem.u r = some 0) := by
  have hm1 : ∀ k ≤ q.N, ∀ r, (q.st k).mask r ≠ 0 := fun k hk r => by rw [hs.mask k hk r]; exact one_ne_zero
  obtain ⟨b1, b2, b3, b4, b5, b6⟩ := updateBounds_spec q hs.wf hf mem.l mem.u
  have hlu := problem_lu q mem
  have hA := problem_A q mem hrd
  have hn : (problem q (updateMemory q mem)).n = numVars q := rfl
  have hmm : (problem q (updateMemory q mem)).m = numConstr q := rfl
  have hfe := C47_feasible q old x y hs hf mem hrd
  rw [box_kkt, hmm, hn]
  have hstat : (∀ c < numVars q, (problem q (updateMemory q mem)).P.symMul (numVars q) x c + (problem q (updateMemory q mem)).q c +
      (problem q (updateMemory q mem)).A.mulTr (numConstr q) y c = 0) ↔
      (∀ k ≤ q.N, ∀ r < (q.st k).nux, lagUx q (fillOut q old x y) k r = 0) ∧
      (∀ k ≤ q.N, ∀ r < (q.st k).ns, lagSl q (fillOut q old x y) k r = 0) ∧
      (∀ k ≤ q.N, ∀ r < (q.st k).ns, lagSu q (fillOut q old x y) k r = 0) := by
    constructor
    · intro h
      refine ⟨?_, ?_, ?_⟩ <;> intro k hk r hr <;> have hb := off_block (nv q) (show k < q.N + 1 by omega) <;>
        have h1 := nv_eq q k <;> have h2 := hs.wf.nux k
      · rw [← stat_ux q old x y hs hf mem hrd hk hr]
        exact h _ (show _ < numVars q by unfold numVars; omega)
      · rw [← stat_sl q old x y hs hf mem hrd hk hr]
        exact h _ (show _ < numVars q by unfold numVars; omega)
      · rw [← stat_su q old x y hs hf mem hrd hk hr]
        exact h _ (show _ < numVars q by unfold numVars; omega)
    · rintro ⟨h1, h2, h3⟩ c hc
      obtain ⟨k, hk, i, hi, e⟩ := off_cases (nv q) (q.N + 1) c hc
      have hn := nv_eq q k
      have hx := hs.wf.nux k
      rw [e]
      by_cases h4 : i < (q.st k).nux
      · rw [stat_ux q old x y hs hf mem hrd (by omega) h4]
        exact h1 k (by omega) i h4
      · by_cases h5 : i < (q.st k).nux + (q.st k).ns
        · rw [show i = (q.st k).nux + (i - (q.st k).nux) by omega, stat_sl q old x y hs hf mem hrd (by omega) (by omega)]
          exact h2 k (by omega) _ (by omega)
        · rw [show i = (q.st k).nux + ((q.st k).ns + (i - (q.st k).nux - (q.st k).ns)) by omega,
            stat_su q old x y hs hf mem hrd (by omega) (by omega)]
          exact h3 k (by omega) _ (by omega)
  have hl0 : ∀ k ≤ q.N, ∀ r < (q.st k).m, ¬ soft q k r = true → (q.st k).sl (part q x k) r = 0 ∧ (q.st k).su (part q x k) r = 0 := by
    intro k hk r hr hsr
    have h4 : ¬ 0 ≤ (q.st k).idxs r := fun h => hsr ((soft_iff q k r).2 h)
    simp only [Stage.sl, Stage.su, if_neg h4, and_self]
  have hsig : (∀ k < q.N, ∀ j < q.nx (k + 1), (mat q (oR q) (oV q)).mulVec (numVars q) x (addr q (.dyn k j)) = - (q.st k).b j) →
      ((∀ r < numConstr q, Signs (problem q (updateMemory q mem)) x y r) ↔
      ((∀ k ≤ q.N, ∀ r < (q.st k).m, 0 ≤ (fillOut q old x y).lam k r ∧ (fillOut q old x y).lam k r * (q.st k).gapL (part q x k) r = 0) ∧
       (∀ k ≤ q.N, ∀ r < (q.st k).m, 0 ≤ (fillOut q old x y).lam k ((q.st k).m + r) ∧
        (fillOut q old x y).lam k ((q.st k).m + r) * (q.st k).gapU (part q x k) r = 0) ∧
       (∀ k ≤ q.N, ∀ s < 2 * (q.st k).ns, 0 ≤ (fillOut q old x y).lam k (2 * (q.st k).m + s) ∧
        (fillOut q old x y).lam k (2 * (q.st k).m + s) * (q.st k).gapS (part q x k) s = 0)) ∧
      ∀ r, Unused q r → 0 ≤ y r ∧ (0 < y r → mem.u r = some 0)) := by
    intro hdyn
    unfold Signs
    rw [hlu.1, hlu.2, hA, hn]
    constructor
    · intro h
      refine ⟨⟨?_, ?_, ?_⟩, ?_⟩
      · intro k hk r hr
        have h2 := h _ (addr_lt q (ok_con q hk hr))
        rw [(b2 k hk r hr).1, (b2 k hk r hr).2, mulVec_con q hs.wf hf hs.inj x hk hr] at h2
        rw [fill_low q old x y hs.wf hk hr]
        have key : y (addr q (.con k r)) < 0 → (q.st k).gapL (part q x k) r = 0 := by
          intro h0
          have := h2.1 h0
          rw [Stage.gapL]
          have := Option.some.inj this
          linarith
        by_cases hsr : soft q k r = true
        · rw [if_pos hsr]
          rw [if_pos hsr] at h2
          have hle : y (addr q (.con k r)) ≤ 0 := by
            by_contra hc
            have := h2.2 (not_le.1 hc)
            cases this
          refine ⟨by linarith, ?_⟩
          rcases hle.eq_or_lt with e | e
          · rw [e]; ring
          · rw [key e]; ring
        · rw [if_neg hsr]
          by_cases hle : y (addr q (.con k r)) ≤ 0
          · rw [if_pos hle]
            refine ⟨by linarith, ?_⟩
            rcases hle.eq_or_lt with e | e
            · rw [e]; ring
            · rw [key e]; ring
          · rw [if_neg hle]; simp
      · intro k hk r hr
        rw [fill_upp q old x y hs.wf hk hr, Stage.gapU]
        by_cases hsr : soft q k r = true
        · rw [if_pos hsr]
          have h2 := h _ (addr_lt q (ok_rep q hf hk hr hsr))
          rw [b3 k hk _ (by have := cnt_lt q hr hsr; have := hf k hk; omega), b4 k hk r hr hsr,
            mulVec_rep q hs.wf hf hs.inj x hk hr hsr] at h2
          have hge : 0 ≤ y (addr q (.con k ((q.st k).m + cnt q k r))) := by
            by_contra hc
            have := h2.1 (not_le.1 hc)
            cases this
          refine ⟨hge, ?_⟩
          rcases hge.eq_or_lt with e | e
          · rw [← e]; ring
          · have := Option.some.inj (h2.2 e)
            rw [show - (q.st k).lhs (part q x k) r + (q.st k).su (part q x k) r - (q.st k).d ((q.st k).m + r) = 0 by linarith, mul_zero]
        · rw [if_neg hsr]
          have h2 := h _ (addr_lt q (ok_con q hk hr))
          rw [(b2 k hk r hr).2, if_neg hsr, mulVec_con q hs.wf hf hs.inj x hk hr, (hl0 k hk r hr hsr).1] at h2
          by_cases hle : y (addr q (.con k r)) ≤ 0
          · rw [if_pos hle]; simp
          · rw [if_neg hle]
            have := Option.some.inj (h2.2 (not_le.1 hle))
            refine ⟨(not_le.1 hle).le, ?_⟩
            rw [(hl0 k hk r hr hsr).2,
              show - (q.st k).lhs (part q x k) r + 0 - (q.st k).d ((q.st k).m + r) = 0 by linarith, mul_zero]
      · intro k hk s hs'
        have h2 := h _ (addr_lt q (R := .slk k s) ⟨hk, hs'⟩)
        rw [(b6 k hk s hs').1, (b6 k hk s hs').2, mulVec_slk q hs.wf hf x hk hs'] at h2
        rw [fill_slk q old x y hk hs', Stage.gapS]
        have hle : y (addr q (.slk k s)) ≤ 0 := by
          by_contra hc
          have := h2.2 (not_le.1 hc)
          cases this
        refine ⟨by linarith, ?_⟩
        rcases hle.eq_or_lt with e | e
        · rw [e]; ring
        · have := Option.some.inj (h2.1 e)
          rw [show part q x k ((q.st k).nux + s) - (q.st k).d (2 * (q.st k).m + s) = 0 by linarith, mul_zero]
      · rintro r ⟨k, hk, c, hc, hcc, rfl⟩
        have h1 : conLen q k = (q.st k).m + (q.st k).ns := rfl
        have h2 := h _ (addr_lt q (R := .con k ((q.st k).m + c)) ⟨hk, by omega⟩)
        rw [b3 k hk c hc, b5 k hk c hc hcc, mulVec_unused q hf x hk hcc hc] at h2
        refine ⟨?_, h2.2⟩
        by_contra hneg
        have := h2.1 (not_le.1 hneg)
        cases this
    · rintro ⟨⟨h1, h2, h3⟩, h4⟩ r hr
      rcases row_cases q hr with ⟨k, hk, j, hj, rfl⟩ | ⟨k, hk, j, hj, rfl⟩ | ⟨k, hk, j, hj, hsj, rfl⟩ | hu | ⟨k, hk, s, hs', rfl⟩
      · rw [(b1 k hk j hj).1, (b1 k hk j hj).2, hdyn k hk j hj]
        exact ⟨fun _ => rfl, fun _ => rfl⟩
      · rw [(b2 k hk j hj).1, (b2 k hk j hj).2, mulVec_con q hs.wf hf hs.inj x hk hj]
        have e1 := h1 k hk j hj
        have e2 := h2 k hk j hj
        rw [fill_low q old x y hs.wf hk hj, Stage.gapL] at e1
        rw [fill_upp q old x y hs.wf hk hj, Stage.gapU] at e2
        constructor
        · intro h0
          have e3 : - y (addr q (.con k j)) * ((q.st k).lhs (part q x k) j + (q.st k).sl (part q x k) j - (q.st k).d j) = 0 := by
            by_cases hsr : soft q k j = true
            · rw [if_pos hsr] at e1; exact e1.2
            · rw [if_neg hsr, if_pos h0.le] at e1; exact e1.2
          rcases mul_eq_zero.1 e3 with e | e
          · linarith
          · congr 1; linarith
        · intro h0
          by_cases hsr : soft q k j = true
          · rw [if_pos hsr] at e1
            linarith [e1.1]
          · rw [if_neg hsr, if_neg (not_le.2 h0), (hl0 k hk j hj hsr).2] at e2
            rw [if_neg hsr, (hl0 k hk j hj hsr).1]
            rcases mul_eq_zero.1 e2.2 with e | e
            · linarith
            · congr 1; linarith
      · rw [b3 k hk _ (by have := cnt_lt q hj hsj; have := hf k hk; omega), b4 k hk j hj hsj, mulVec_rep q hs.wf hf hs.inj x hk hj hsj]
        have e2 := h2 k hk j hj
        rw [fill_upp q old x y hs.wf hk hj, Stage.gapU, if_pos hsj] at e2
        constructor
        · intro h0; linarith [e2.1]
        · intro h0
          rcases mul_eq_zero.1 e2.2 with e | e
          · linarith
          · congr 1; linarith
      · have e := h4 r hu
        obtain ⟨k, hk, c, hc, hcc, rfl⟩ := hu
        rw [b3 k hk c hc, b5 k hk c hc hcc, mulVec_unused q hf x hk hcc hc]
        exact ⟨fun h0 => by linarith [e.1], e.2⟩
      · rw [(b6 k hk s hs').1, (b6 k hk s hs').2, mulVec_slk q hs.wf hf x hk hs']
        have e1 := h3 k hk s hs'
        rw [fill_slk q old x y hk hs', Stage.gapS] at e1
        constructor
        · intro h0
          rcases mul_eq_zero.1 e1.2 with e | e
          · linarith
          · congr 1; linarith
        · intro h0; linarith [e1.1]
  have hdynF : Feasible q (fillOut q old x y).ux →
      ∀ k < q.N, ∀ j < q.nx (k + 1), (mat q (oR q) (oV q)).mulVec (numVars q) x (addr q (.dyn k j)) = - (q.st k).b j :=
    fun h k hk j hj => (dyn_iff q old x y hs hf hk hj).1 (h.dyn k hk j hj)
  constructor
  · rintro ⟨s1, s2, s3⟩
    have hF := hfe.1 s2
    have hS := hstat.1 s1
    obtain ⟨⟨t1, t2, t3⟩, t4⟩ := (hsig (hdynF hF.1)).1 s3
    refine ⟨⟨hF.1, hS.1, hS.2.1, hS.2.2, ?_, ?_, ?_⟩, fun r hr => ⟨hF.2 r hr, t4 r hr⟩⟩
    · intro k hk r hr
      rw [(gaps q old x y hs hk).1 r hr]
      exact ⟨(t1 k hk r hr).1, fun h0 => absurd h0 (hm1 k hk _), fun _ => (t1 k hk r hr).2⟩
    · intro k hk r hr
      rw [(gaps q old x y hs hk).2.1 r hr]
      exact ⟨(t2 k hk r hr).1, fun h0 => absurd h0 (hm1 k hk _), fun _ => (t2 k hk r hr).2⟩
    · intro k hk r hr
      rw [(gaps q old x y hs hk).2.2 r hr]
      exact ⟨(t3 k hk r hr).1, fun h0 => absurd h0 (hm1 k hk _), fun _ => (t3 k hk r hr).2⟩
  · rintro ⟨h, hu⟩
    refine ⟨hstat.2 ⟨h.statUx, h.statSl, h.statSu⟩, hfe.2 ⟨h.feas, fun r hr => (hu r hr).1⟩,
      (hsig (hdynF h.feas)).2 ⟨⟨?_, ?_, ?_⟩, fun r hr => (hu r hr).2⟩⟩
    · intro k hk r hr
      rw [← (gaps q old x y hs hk).1 r hr]
      exact ⟨(h.low k hk r hr).1, (h.low k hk r hr).2.2 (hm1 k hk _)⟩
    · intro k hk r hr
      rw [← (gaps q old x y hs hk).2.1 r hr]
      exact ⟨(h.upp k hk r hr).1, (h.upp k hk r hr).2.2 (hm1 k hk _)⟩
    · intro k hk r hr
      rw [← (gaps q old x y hs hk).2.2 r hr]
      exact ⟨(h.slk k hk r hr).1, (h.slk k hk r hr).2.2 (hm1 k hk _)⟩

/-- one slack per softened constraint: no row is unused -/
theorem no_unused (h : ∀ k ≤ q.N, cnt q k (q.st k).m = (q.st k).ns) (r : Nat) : ¬ Unused q r := by
  rintro ⟨k, hk, c, hc, hcc, _⟩
  have := h k hk
  omega

/-- C47 for one slack per softened constraint: the two sets of optimality conditions are equivalent, whatever the memory held. -/
theorem C47_kkt_exact_partial (hs : Supported q) (h : ∀ k ≤ q.N, cnt q k (q.st k).m = (q.st k).ns) (mem : Mem K) (hrd : Ready q mem)
    [IsStrictOrderedRing K] :
    (problem q (updateMemory q mem)).Kkt x y ↔ Kkt q (fillOut q old x y) := by
  rw [C47_kkt_partial q old x y hs (fun k hk => (h k hk).le) mem hrd]
  exact ⟨fun h => h.1, fun h' => ⟨h', fun r hr => absurd hr (no_unused q h r)⟩⟩

end kkt

/-! ## histories -/

omit [LinearOrder K] in
theorem structure_same (q q' : Qp K) (h : SameShape q q') :
    hessStructure q' = hessStructure q ∧ conStructure q' = conStructure q := by
  refine ⟨(Clarabel.structure_same q q' h).1, ?_⟩
  obtain ⟨hN, hnx, hnu, hs⟩ := h
  have h2 : dynLen q' = dynLen q := by funext k; simp only [dynLen, hnx, hN]
  have h3 : conLen q' = conLen q := by funext k; simp only [conLen, (hs k).1, (hs k).2.1, (hs k).2.2.1]
  have h4 : slkLen q' = slkLen q := by funext k; simp only [slkLen, (hs k).2.2.1]
  have h5 : boundOn q' = boundOn q := by funext k v; simp only [boundOn, (hs k).1, (hs k).2.2.2.1]
  have h6 : softRows q' = softRows q := by funext k v; simp only [softRows, (hs k).1, (hs k).2.1, (hs k).2.2.2.2]
  have h7 : conStart q' = conStart q := by simp only [conStart, h2, hN]
  have h8 : slkStart q' = slkStart q := by simp only [slkStart, h3, hN, h7]
  have h9 : soft q' = soft q := by funext k v; simp only [soft, (hs k).2.2.2.2]
  have h10 : cnt q' = cnt q := by funext k v; simp only [cnt, h9]
  have h11 : cntG q' = cntG q := by funext k v; simp only [cntG, h9, (hs k).1]
  have h12 : softG q' = softG q := by funext k; simp only [softG, h9, (hs k).1, (hs k).2.1]
  have hv : varRows q' = varRows q := by
    funext k v; simp only [varRows, hN, hnx, h2, h3, h5, h7, h9, h10, h11, h12, (hs k).1, (hs k).2.1]
  have : stageRows q' = stageRows q := by
    funext k
    have a1 : rowsU q' k = rowsU q k := by funext j; simp only [rowsU, hv]
    have a2 : rowsX q' k = rowsX q k := by funext j; simp only [rowsX, hv, h2, hnx, hnu]
    have a3 : rowsSl q' k = rowsSl q k := by funext j; simp only [rowsSl, h6, h3, h4, h7, h8]
    have a4 : rowsSu q' k = rowsSu q k := by
      funext j; simp only [rowsSu, h6, h3, h4, h7, h8, h10, (hs k).1, (hs k).2.1, (hs k).2.2.1]
    simp only [stageRows, a1, a2, a3, a4, hnx, hnu, (hs k).2.2.1]
  rw [conStructure, conStructure, this, hN]

/-- C47, histories: after a first call with `q0` and any number of further calls, the problem handed over for the QP `q` is the
one a fresh memory would give, except for the upper limits of the rows that no softened constraint uses. -/
theorem C47_history (q0 : Qp K) (hist : List (Qp K)) (q : Qp K) (hq : SameShape q0 q) (wf : WF q) (hf : Fits q)
    (mem mem' : Mem K) (h1 : mem.first = true) (h2 : mem'.first = true) :
    let seen := problem q (updateMemory q (hist.foldl (fun m q' => call q' m) (call q0 mem)))
    let fresh := problem q (updateMemory q mem')
    seen.n = fresh.n ∧ seen.m = fresh.m ∧ seen.P = fresh.P ∧ seen.A = fresh.A ∧ seen.q = fresh.q ∧
      ∀ r < fresh.m, seen.l r = fresh.l r ∧ (seen.u r = fresh.u r ∨ Unused q r) := by
  intro seen fresh
  have inv : ∀ (l : List (Qp K)) (m : Mem K), m.first = false ∧ m.P = hessStructure q0 ∧ m.A = conStructure q0 →
      (l.foldl (fun m q' => call q' m) m).first = false ∧ (l.foldl (fun m q' => call q' m) m).P = hessStructure q0 ∧
      (l.foldl (fun m q' => call q' m) m).A = conStructure q0 := by
    intro l
    induction l with
    | nil => exact fun m h => h
    | cons a l ih =>
      refine fun m h => ih _ ⟨rfl, ?_, ?_⟩ <;> simp only [call, updateMemory, h.1] <;> simp [h.2]
  have h := inv hist (call q0 mem) ⟨rfl, (update_P q0 mem (Or.inl h1)).1, (update_P q0 mem (Or.inl h1)).2⟩
  have e := structure_same q0 q hq
  set m := hist.foldl (fun m q' => call q' m) (call q0 mem) with hm
  have r1 : Ready q m := Or.inr ⟨h.2.1.trans e.1.symm, h.2.2.trans e.2.symm⟩
  have r2 : Ready q mem' := Or.inl h2
  refine ⟨rfl, rfl, ?_, ?_, rfl, ?_⟩
  · show (problem q (updateMemory q m)).P = (problem q (updateMemory q mem')).P
    rw [problem_P q m r1, problem_P q mem' r2]
  · show (problem q (updateMemory q m)).A = (problem q (updateMemory q mem')).A
    rw [problem_A q m r1, problem_A q mem' r2]
  · intro r hr
    show (problem q (updateMemory q m)).l r = (problem q (updateMemory q mem')).l r ∧
      ((problem q (updateMemory q m)).u r = (problem q (updateMemory q mem')).u r ∨ _)
    rw [(problem_lu q m).1, (problem_lu q m).2, (problem_lu q mem').1, (problem_lu q mem').2]
    obtain ⟨a1, a2, a3, a4, a5, a6⟩ := updateBounds_spec q wf hf m.l m.u
    obtain ⟨b1, b2, b3, b4, b5, b6⟩ := updateBounds_spec q wf hf mem'.l mem'.u
    rcases row_cases q hr with ⟨k, hk, j, hj, rfl⟩ | ⟨k, hk, j, hj, rfl⟩ | ⟨k, hk, j, hj, hsj, rfl⟩ | hu | ⟨k, hk, s, hs', rfl⟩
    · rw [(a1 k hk j hj).1, (a1 k hk j hj).2, (b1 k hk j hj).1, (b1 k hk j hj).2]; exact ⟨rfl, Or.inl rfl⟩
    · rw [(a2 k hk j hj).1, (a2 k hk j hj).2, (b2 k hk j hj).1, (b2 k hk j hj).2]; exact ⟨rfl, Or.inl rfl⟩
    · have hc : cnt q k j < (q.st k).ns := by have := cnt_lt q hj hsj; have := hf k hk; omega
      rw [a3 k hk _ hc, b3 k hk _ hc, a4 k hk j hj hsj, b4 k hk j hj hsj]; exact ⟨rfl, Or.inl rfl⟩
    · refine ⟨?_, Or.inr hu⟩
      obtain ⟨k, hk, c, hc, hcc, rfl⟩ := hu
      rw [a3 k hk c hc, b3 k hk c hc]
    · rw [(a6 k hk s hs').1, (a6 k hk s hs').2, (b6 k hk s hs').1, (b6 k hk s hs').2]; exact ⟨rfl, Or.inl rfl⟩

/-- the switches for one-sided constraints have no influence on what OSQP is given -/
theorem C47_mask_ignored (q : Qp K) (mask : Nat → Nat → K) (mem : Mem K) :
    let q' : Qp K := { q with st := fun k => { q.st k with mask := mask k } }
    problem q' (updateMemory q' mem) = problem q (updateMemory q mem) := rfl

/-- statuses -/
theorem C47_status (s : OsStatus) : (status s = .success ↔ s = .solved) ∧ (status s = .maxIter ↔ s = .maxIter) ∧
    (status s = .infeasible ↔ s = .primalInfeasible) := by cases s <;> simp [status]

/-! ## witnesses -/

open Acados.SparseQp.Clarabel (free1 qEx qOneSided)

/-- memory as the interface creates it -/
def mem0 : Mem ℚ := ⟨true, [], fun _ => some 0, fun _ => some 0, [], [], ⟨[], []⟩, ⟨[], []⟩⟩

/-- one stage, three states, three general rows that share one slack -/
def qShared : Qp ℚ where
  N := 0
  nx := fun _ => 3
  nu := fun _ => 0
  st := fun _ => { free1 1 1 with nux := 3, ng := 3, ns := 1, idxs := fun r => if r < 3 then 0 else -1, DCt := fun i j => if i = j then 1 else 0, Z := fun _ => 1 }

/-- C47 fails for slacks shared by several constraints: the index and value arrays written for the constraint matrix are longer
than the arrays allocated for them (heap overflow), and a column has two entries for the same row. -/
theorem C47_overflow : WF qShared ∧ ¬ Fits qShared ∧ nnzmaxA qShared < (conStructure qShared).i.length ∧
    nnzmaxA qShared < (conData qShared).length ∧ 
    ¬ (problem qShared (updateMemory qShared mem0)).A.Valid (numConstr qShared) (numVars qShared) := by
  refine ⟨⟨fun i => rfl, fun i j hj => absurd hj (Nat.not_lt_zero _), ?_, fun i r => Or.inr rfl⟩, ?_, by decide +kernel, by decide +kernel, ?_⟩
  · intro i r hr
    exact Or.inr ⟨0, Nat.zero_lt_one, if_pos hr⟩
  · intro h
    exact absurd (h 0 (Nat.le_refl _)) (by decide +kernel)
  · intro h
    have := h.nodup 4 (by decide +kernel)
    revert this
    decide +kernel

/-- C47 fails for one-sided constraints: `x = 0` solves the problem handed to OSQP, but not the QP `min ½ x² + x`, `x ≤ 5`. -/
theorem C47_one_sided_wrong : WF qOneSided ∧ Fits qOneSided ∧
    ∃ (old : Sol ℚ) (x y : Nat → ℚ), (problem qOneSided (updateMemory qOneSided mem0)).Kkt x y ∧
      ¬ Kkt qOneSided (fillOut qOneSided old x y) := by
  refine ⟨Clarabel.C58_one_sided_wrong.1, ?_, ⟨fun _ _ => 0, fun _ _ => 0, fun _ _ => 0⟩,
    fun _ => 0, fun r => if r = 0 then -1 else 0, ?_, ?_⟩
  · intro k hk
    obtain rfl : k = 0 := Nat.le_zero.1 hk
    decide +kernel
  · have hm : (problem qOneSided (updateMemory qOneSided mem0)).m = 1 := by decide +kernel
    have hn : (problem qOneSided (updateMemory qOneSided mem0)).n = 1 := by decide +kernel
    constructor
    case stat =>
      intro c hc
      rw [hn] at hc
      obtain rfl : c = 0 := by omega
      decide +kernel
    case low =>
      intro r hr
      rw [hm] at hr
      obtain rfl : r = 0 := by omega
      intro l hl
      rw [show (problem qOneSided (updateMemory qOneSided mem0)).l 0 = some 0 by decide +kernel] at hl
      cases hl
      decide +kernel
    case upp =>
      intro r hr
      rw [hm] at hr
      obtain rfl : r = 0 := by omega
      intro l hl
      rw [show (problem qOneSided (updateMemory qOneSided mem0)).u 0 = some 5 by decide +kernel] at hl
      cases hl
      decide +kernel
    case neg =>
      intro r hr
      rw [hm] at hr
      obtain rfl : r = 0 := by omega
      decide +kernel
    case pos =>
      intro r hr
      rw [hm] at hr
      obtain rfl : r = 0 := by omega
      decide +kernel
  · intro h
    have := (h.low 0 (Nat.le_refl _) 0 (by decide +kernel)).2.1 (by decide +kernel)
    revert this
    decide +kernel

/-- two bounds on the same variable: the second bound row of the matrix stays empty, so the tighter bound is lost -/
def qTwice : Qp ℚ where
  N := 0
  nx := fun _ => 1
  nu := fun _ => 0
  st := fun _ => { free1 1 1 with nb := 2, d := fun i => if i < 2 then -9 else if i = 2 then -5 else -1 }

theorem C47_duplicate_bound_lost : WF qTwice ∧ Fits qTwice ∧
    (problem qTwice (updateMemory qTwice mem0)).A.i = [0] ∧
    (∀ r < 2, InBox (problem qTwice (updateMemory qTwice mem0)) (fun _ => 3) r) ∧
    ∀ old : Sol ℚ, ¬ Feasible qTwice (fillOut qTwice old (fun _ => 3) fun _ => 0).ux := by
  refine ⟨⟨fun i => rfl, fun i j hj => Nat.zero_lt_one, fun i r hr => Or.inl rfl, fun i r => Or.inr rfl⟩, ?_, by decide +kernel, ?_, ?_⟩
  · intro k hk
    obtain rfl : k = 0 := Nat.le_zero.1 hk
    decide +kernel
  · intro r hr
    have h : r = 0 ∨ r = 1 := by omega
    constructor
    · intro l hl
      rcases h with rfl | rfl
      · rw [show (problem qTwice (updateMemory qTwice mem0)).l 0 = some (-9) by decide +kernel] at hl
        cases hl; decide +kernel
      · rw [show (problem qTwice (updateMemory qTwice mem0)).l 1 = some (-9) by decide +kernel] at hl
        cases hl; decide +kernel
    · intro l hl
      rcases h with rfl | rfl
      · rw [show (problem qTwice (updateMemory qTwice mem0)).u 0 = some 5 by decide +kernel] at hl
        cases hl; decide +kernel
      · rw [show (problem qTwice (updateMemory qTwice mem0)).u 1 = some 1 by decide +kernel] at hl
        cases hl; decide +kernel
  · intro old h
    have := h.upp 0 (Nat.le_refl _) 1 (by decide +kernel) (by decide +kernel)
    simp [Stage.gapU, Stage.lhs, Stage.su, qTwice, fillOut, free1, nv, Stage.m] at this

/-! ## a QP that meets the hypotheses -/

example : Fits qEx ∧ (∀ k ≤ qEx.N, cnt qEx k (qEx.st k).m = (qEx.st k).ns) ∧ Ready qEx mem0 ∧ numVars qEx = 5 ∧ numConstr qEx = 7 ∧
    (conStructure qEx).i = [0, 1, 2, 3, 0, 2, 3, 2, 5, 3, 6, 0, 4] := by
  have h : ∀ k ≤ qEx.N, cnt qEx k (qEx.st k).m = (qEx.st k).ns := by
    intro k hk
    have : k ≤ 1 := hk
    have : k = 0 ∨ k = 1 := by omega
    rcases this with rfl | rfl <;> decide +kernel
  exact ⟨fun k hk => (h k hk).le, h, Or.inl rfl, by decide +kernel, by decide +kernel, by decide +kernel⟩

/-- `Supported qEx` is shown in Props/Clarabel; the multipliers of a solution of the smaller QP `min ½ x² + x`, `-5 ≤ x ≤ 5` -/
def qSmall : Qp ℚ where
  N := 0
  nx := fun _ => 1
  nu := fun _ => 0
  st := fun _ => { free1 1 1 with nb := 1, d := fun _ => -5 }

example : (problem qSmall (updateMemory qSmall mem0)).Kkt (fun _ => -1) fun _ => 0 := by
  have hm : (problem qSmall (updateMemory qSmall mem0)).m = 1 := by decide +kernel
  have hn : (problem qSmall (updateMemory qSmall mem0)).n = 1 := by decide +kernel
  constructor
  case stat =>
    intro c hc
    rw [hn] at hc
    obtain rfl : c = 0 := by omega
    decide +kernel
  case low =>
    intro r hr
    rw [hm] at hr
    obtain rfl : r = 0 := by omega
    intro l hl
    rw [show (problem qSmall (updateMemory qSmall mem0)).l 0 = some (-5) by decide +kernel] at hl
    cases hl; decide +kernel
  case upp =>
    intro r hr
    rw [hm] at hr
    obtain rfl : r = 0 := by omega
    intro l hl
    rw [show (problem qSmall (updateMemory qSmall mem0)).u 0 = some 5 by decide +kernel] at hl
    cases hl; decide +kernel
  case neg => intro r _ h; exact absurd h (lt_irrefl _)
  case pos => intro r _ h; exact absurd h (lt_irrefl _)

end Acados.SparseQp.Osqp
