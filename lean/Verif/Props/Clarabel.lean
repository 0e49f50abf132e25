import Verif.Lemmas.Clarabel3
import Mathlib.Algebra.Order.Ring.Rat
import Mathlib.Algebra.Field.Rat
/-!
# C58: the QP handed to Clarabel is the stage-wise QP

Specification: `Spec/Csc.lean` (compressed columns, the cone problem and its optimality conditions) and
`Spec/OcpQp.lean` (feasible set and optimality conditions of the stage-wise QP).
-/
namespace Acados.SparseQp.Clarabel
open Acados.QpScal Acados.Csc Finset
variable {K : Type*} [Field K] [LinearOrder K]

/-- what the interface needs of the QP: symmetric Hessian, no one-sided constraints, at most one bound per variable -/
structure Supported (q : Qp K) : Prop where
  wf : WF q
  sym : ∀ k ≤ q.N, ∀ i < q.nx k + q.nu k, ∀ j < q.nx k + q.nu k, (q.st k).H i j = (q.st k).H j i
  mask : ∀ k ≤ q.N, ∀ r, (q.st k).mask r = 1
  inj : ∀ k, ∀ i < (q.st k).nb, ∀ j < (q.st k).nb, (q.st k).idxb i = (q.st k).idxb j → i = j

/-- the negation of the dynamics right-hand side (`2*nx[kk+1]` entries) stays inside `b` -/
def InsideB (q : Qp K) : Prop := ∀ k < q.N, off (dynLen q) k + 2 * q.nx (k + 1) ≤ numConstr q

/-! ## what the solver reads -/

theorem problem_A (q : Qp K) (mem : Mem K) : (problem q (updateMemory true q mem)).A = mat q (cR q) (cV q) := by
  rw [← con_mat q]
  show (⟨(conStructure q).p, (conStructure q).i, read (updateBounds q _) (numConstr q + nnzmaxP q) (conStructure q).i.length⟩ : Csc K) = _
  congr 1
  refine read_write (conData q) (write (hessData q) (numConstr q) mem.buf) _ _ ?_ _ (conStructure_length q)
  intro i hi
  rw [(updateBounds_spec q _).2.2.2 _ (by omega), flips_zero q fun k hk => by have := reach q hk; omega, pow_zero, one_mul]
  rfl

theorem buf_P (q : Qp K) (mem : Mem K) {i : Nat} (hi : i < nnzmaxP q) :
    (updateMemory true q mem).buf (numConstr q + i) = (-1) ^ flips q q.N (numConstr q + i) * (hessData q).getD i 0 := by
  show updateBounds q _ (numConstr q + i) = _
  rw [(updateBounds_spec q _).2.2.2 _ (by omega)]
  congr 1
  rw [write, unpack, if_neg (by omega), write, unpack, hessData_length, if_pos (by omega), Nat.add_sub_cancel_left]

theorem problem_P (q : Qp K) (hin : InsideB q) (mem : Mem K) :
    (problem q (updateMemory true q mem)).P = mat q (hR q) (hV q) := by
  rw [← hess_mat q]
  show (⟨(hessStructure q).p, (hessStructure q).i, read (updateMemory true q mem).buf (numConstr q) (hessStructure q).i.length⟩ : Csc K) = _
  congr 1
  refine read_write (hessData q) mem.buf _ _ ?_ _ (by rw [hessStructure_length, hessData_length])
  intro i hi
  rw [hessData_length] at hi
  rw [buf_P q mem hi, flips_zero q fun k hk => by have := hin k hk; omega, pow_zero, one_mul, write, unpack, hessData_length,
    if_pos (by omega), Nat.add_sub_cancel_left]

/-- C58: both matrices handed to Clarabel are well-formed compressed-column matrices of the declared shape: pointers start at
0, do not decrease and end at the number of nonzeros; row indices are in range and do not repeat in a column. -/
theorem C58_matrices_valid (q : Qp K) (mem : Mem K) :
    (problem q (updateMemory true q mem)).A.Valid (numConstr q) (numVars q) ∧
    (problem q (updateMemory true q mem)).P.Valid (numVars q) (numVars q) := by
  constructor
  · rw [problem_A]
    exact mat_valid q _ _ (fun k _ i _ => clen q k i) _ fun k hk i hi => ⟨mem_cR_lt q hk hi, cR_nodup q hk hi⟩
  · have hv := mat_valid q (hR q) (hV q) (fun k _ i _ => hlen q k i) (numVars q) (by
      intro k hk i hi
      have hb := off_block (nv q) (show k < q.N + 1 by omega)
      have hn := nv_eq q k
      unfold hR numVars
      split
      · refine ⟨?_, nodup_map_add _ List.nodup_range _⟩
        intro r hr
        obtain ⟨ii, hii, rfl⟩ := List.mem_map.1 hr
        have := List.mem_range.1 hii
        omega
      · refine ⟨?_, by simp⟩
        intro r hr
        rw [List.mem_singleton.1 hr]; omega)
    have e := hess_mat q
    set D := (problem q (updateMemory true q mem)).P with hD
    have e1 : D.p = (mat q (hR q) (hV q)).p := (show D.p = (hessStructure q).p from rfl).trans (congrArg Csc.p e)
    have e2 : D.i = (mat q (hR q) (hV q)).i := (show D.i = (hessStructure q).i from rfl).trans (congrArg Csc.i e)
    have e3 : D.x.length = (mat q (hR q) (hV q)).x.length := by
      rw [show (mat q (hR q) (hV q)).x = hessData q from (congrArg Csc.x e).symm, hessData_length, ← hessStructure_length q]
      show (read _ _ _).length = _
      simp [read]; rfl
    have ecol : ∀ c, (D.col c).map Prod.fst = ((mat q (hR q) (hV q)).col c).map Prod.fst := by
      intro c
      unfold Csc.col
      rw [List.map_drop, List.map_drop, List.map_take, List.map_take, List.map_fst_zip (by rw [e3, hv.vals, e2]),
        List.map_fst_zip (by rw [hv.vals]), e1, e2]
    constructor
    case len => rw [e1]; exact hv.len
    case first => rw [e1]; exact hv.first
    case mono => rw [e1]; exact hv.mono
    case last => rw [e1, e2]; exact hv.last
    case vals => rw [e3, e2]; exact hv.vals
    case rows =>
      intro c hc en hen
      have : en.1 ∈ (D.col c).map Prod.fst := List.mem_map_of_mem hen
      rw [ecol] at this
      obtain ⟨e', he', h⟩ := List.mem_map.1 this
      rw [← h]
      exact hv.rows c hc e' he'
    case nodup => intro c hc; rw [ecol]; exact hv.nodup c hc

/-- C58: the index and value arrays never exceed the memory reserved for them, whatever the bounds and soft constraints. -/
theorem C58_fits (q : Qp K) :
    (hessStructure q).i.length ≤ nnzmaxP q ∧ (hessData q).length ≤ nnzmaxP q ∧
    (conStructure q).i.length ≤ nnzmaxA q ∧ (conData q).length ≤ nnzmaxA q :=
  ⟨(hessStructure_length q).le, (hessData_length q).le, conStructure_le q, by rw [← conStructure_length]; exact conStructure_le q⟩

/-! ## the vectors seen by the two problems -/

theorem lhs_congr (q : Qp K) (wf : WF q) {k : Nat} {u v : Nat → K} (h : ∀ i < nv q k, u i = v i) {r : Nat} (hr : r < (q.st k).m) :
    (q.st k).lhs u r = (q.st k).lhs v r := by
  have hn : nv q k = q.nu k + q.nx k + 2 * (q.st k).ns := rfl
  unfold Stage.lhs
  split
  · rename_i hb
    have := wf.idxb k r hb
    rw [wf.nux] at this
    exact h _ (by omega)
  · refine sum_congr rfl fun c hc => ?_
    have := Finset.mem_range.1 hc
    rw [wf.nux] at this
    rw [h c (by omega)]

theorem sl_congr (q : Qp K) (wf : WF q) {k : Nat} {u v : Nat → K} (h : ∀ i < nv q k, u i = v i) {r : Nat} (hr : r < (q.st k).m) :
    (q.st k).sl u r = (q.st k).sl v r ∧ (q.st k).su u r = (q.st k).su v r := by
  have hn : nv q k = q.nu k + q.nx k + 2 * (q.st k).ns := rfl
  unfold Stage.sl Stage.su
  rcases wf.idxs k r hr with e | ⟨s, hs, e⟩
  · rw [if_neg (by omega), if_neg (by omega), if_neg (by omega), if_neg (by omega)]; exact ⟨rfl, rfl⟩
  · have hx := wf.nux k
    rw [e]
    simp only [Int.toNat_natCast]
    rw [if_pos (by omega), if_pos (by omega), if_pos (by omega), if_pos (by omega)]
    exact ⟨h _ (by omega), h _ (by omega)⟩

section kkt
variable (q : Qp K) (old : Sol K) (x z : Nat → K)

theorem fill_ux {k i : Nat} (hk : k ≤ q.N) (hi : i < nv q k) : (fillOut q old x z).ux k i = part q x k i := if_pos ⟨hk, hi⟩
theorem fill_pi {k i : Nat} (hk : k < q.N) (hi : i < q.nx (k + 1)) : (fillOut q old x z).pi k i = z (off (dynLen q) k + i) :=
  if_pos ⟨hk, hi⟩
theorem fill_lam {k i : Nat} (hk : k ≤ q.N) (hi : i < 2 * (q.st k).m) : (fillOut q old x z).lam k i = z (c0 q k + i) := by
  have hl : conLen q k = 2 * (q.st k).nb + 2 * (q.st k).ng := rfl
  have hm : (q.st k).m = (q.st k).nb + (q.st k).ng := rfl
  show (if k ≤ q.N ∧ i < conLen q k then _ else _) = _
  rw [if_pos ⟨hk, by omega⟩, c0, conStart, dyn_last]
theorem fill_slk {k s : Nat} (hk : k ≤ q.N) (hs : s < 2 * (q.st k).ns) :
    (fillOut q old x z).lam k (2 * (q.st k).m + s) = z (s0 q k + s) := by
  have hl : conLen q k = 2 * (q.st k).nb + 2 * (q.st k).ng := rfl
  have hm : (q.st k).m = (q.st k).nb + (q.st k).ng := rfl
  have hs' : slkLen q k = 2 * (q.st k).ns := rfl
  show (if k ≤ q.N ∧ 2 * (q.st k).m + s < conLen q k then _ else if k ≤ q.N ∧ 2 * (q.st k).m + s < conLen q k + slkLen q k then _ else _) = _
  rw [if_neg (by omega), if_pos (by omega), s0, slkStart, conStart, dyn_last,
    show 2 * (q.st k).m + s - conLen q k = s by omega]
  congr 1
  omega

/-- the constraint rows in terms of the gaps of the stage-wise QP -/
theorem rows_gap (hs : Supported q) (mem : Mem K) {k : Nat} (hk : k ≤ q.N) :
    (∀ r < (q.st k).m,
      (problem q (updateMemory true q mem)).b (c0 q k + r) - (problem q (updateMemory true q mem)).A.mulVec (numVars q) x (c0 q k + r)
        = (q.st k).gapL (part q x k) r) ∧
    (∀ r < (q.st k).m,
      (problem q (updateMemory true q mem)).b (c0 q k + ((q.st k).m + r)) -
        (problem q (updateMemory true q mem)).A.mulVec (numVars q) x (c0 q k + ((q.st k).m + r))
        = (q.st k).gapU (part q x k) r) ∧
    (∀ s < 2 * (q.st k).ns,
      (problem q (updateMemory true q mem)).b (s0 q k + s) - (problem q (updateMemory true q mem)).A.mulVec (numVars q) x (s0 q k + s)
        = (q.st k).gapS (part q x k) s) := by
  have hl : conLen q k = 2 * (q.st k).nb + 2 * (q.st k).ng := rfl
  have hm : (q.st k).m = (q.st k).nb + (q.st k).ng := rfl
  obtain ⟨-, b2, b3, -⟩ := updateBounds_spec q (write (conData q) (numConstr q + nnzmaxP q) (write (hessData q) (numConstr q) mem.buf))
  have hb : (problem q (updateMemory true q mem)).b
      = updateBounds q (write (conData q) (numConstr q + nnzmaxP q) (write (hessData q) (numConstr q) mem.buf)) := rfl
  rw [problem_A, hb]
  refine ⟨?_, ?_, ?_⟩
  · intro r hr
    rw [b2 k hk r (by omega), mulVec_low q hs.wf hs.inj x hk hr, Stage.gapL]; ring
  · intro r hr
    rw [b2 k hk _ (by omega), show c0 q k + ((q.st k).m + r) = c0 q k + (q.st k).nb + (q.st k).ng + r by omega,
      mulVec_upp q hs.wf hs.inj x hk hr, Stage.gapU]; ring
  · intro s hs'
    rw [b3 k hk s hs', mulVec_slk q hs.wf x hk hs', Stage.gapS,
      show 2 * (q.st k).m + s = 2 * (q.st k).nb + 2 * (q.st k).ng + s by omega]; ring

theorem rows_dyn (mem : Mem K) {k j : Nat} (hk : k < q.N) (hj : j < q.nx (k + 1)) (wf : WF q) :
    (problem q (updateMemory true q mem)).A.mulVec (numVars q) x (off (dynLen q) k + j) =
      (problem q (updateMemory true q mem)).b (off (dynLen q) k + j) ↔
    (∑ r ∈ range (q.st k).nux, (q.st k).BAbt r j * part q x k r) + (q.st k).b j = part q x (k + 1) (q.nu (k + 1) + j) := by
  obtain ⟨b1, -, -, -⟩ := updateBounds_spec q (write (conData q) (numConstr q + nnzmaxP q) (write (hessData q) (numConstr q) mem.buf))
  have hb : (problem q (updateMemory true q mem)).b
      = updateBounds q (write (conData q) (numConstr q + nnzmaxP q) (write (hessData q) (numConstr q) mem.buf)) := rfl
  rw [problem_A, hb, b1 k hk j hj, mulVec_dyn q x hk hj, wf.nux]
  unfold part
  constructor <;> intro h <;> linear_combination h

/-- every inequality row is a lower, an upper or a slack row of a stage -/
theorem row_cases {r : Nat} (h1 : conStart q ≤ r) (h2 : r < numConstr q) :
    ∃ k ≤ q.N, (∃ j < (q.st k).m, r = c0 q k + j) ∨ (∃ j < (q.st k).m, r = c0 q k + ((q.st k).m + j)) ∨
      (∃ s < 2 * (q.st k).ns, r = s0 q k + s) := by
  have hs : slkStart q = off (conLen q) (q.N + 1) + conStart q := rfl
  by_cases h : r < slkStart q
  · obtain ⟨k, hk, i, hi, e⟩ := off_cases (conLen q) (q.N + 1) (r - conStart q) (by omega)
    have hl : conLen q k = 2 * (q.st k).nb + 2 * (q.st k).ng := rfl
    have hm : (q.st k).m = (q.st k).nb + (q.st k).ng := rfl
    have hc : c0 q k = conStart q + off (conLen q) k := rfl
    refine ⟨k, by omega, ?_⟩
    by_cases hi' : i < (q.st k).m
    · exact Or.inl ⟨i, hi', by omega⟩
    · exact Or.inr (Or.inl ⟨i - (q.st k).m, by omega, by omega⟩)
  · rw [numConstr_eq] at h2
    obtain ⟨k, hk, i, hi, e⟩ := off_cases (slkLen q) (q.N + 1) (r - slkStart q) (by omega)
    have hc : s0 q k = slkStart q + off (slkLen q) k := rfl
    exact ⟨k, by omega, Or.inr (Or.inr ⟨i, hi, by omega⟩)⟩

theorem row_range {k : Nat} (hk : k ≤ q.N) :
    (∀ j < 2 * (q.st k).m, conStart q ≤ c0 q k + j ∧ c0 q k + j < numConstr q) ∧
    (∀ s < 2 * (q.st k).ns, conStart q ≤ s0 q k + s ∧ s0 q k + s < numConstr q) := by
  have h1 := con_lt q hk
  have h2 := slk_lt q hk
  have h3 := slkStart_le q
  have h4 := conStart_le q
  have hl : conLen q k = 2 * (q.st k).nb + 2 * (q.st k).ng := rfl
  have hm : (q.st k).m = (q.st k).nb + (q.st k).ng := rfl
  have hs' : slkLen q k = 2 * (q.st k).ns := rfl
  have h5 : c0 q k = conStart q + off (conLen q) k := rfl
  have h6 : s0 q k = slkStart q + off (slkLen q) k := rfl
  exact ⟨fun j hj => by omega, fun s hs => by omega⟩

/-- stationarity of `[u; x]` -/
theorem stat_ux (hs : Supported q) (hin : InsideB q) (mem : Mem K) {k i : Nat} (hk : k ≤ q.N) (hi : i < (q.st k).nux) :
    (problem q (updateMemory true q mem)).P.symMul (numVars q) x (off (nv q) k + i) +
      (problem q (updateMemory true q mem)).q (off (nv q) k + i) +
      (problem q (updateMemory true q mem)).A.mulTr (numConstr q) z (off (nv q) k + i)
      = lagUx q (fillOut q old x z) k i := by
  have hx := hs.wf.nux k
  have hn := nv_eq q k
  have hi' : i < nv q k := by omega
  have hg : (problem q (updateMemory true q mem)).q (off (nv q) k + i) = (q.st k).g i := gradient_get q hk hi'
  rw [problem_A, problem_P q hin, hg, mulTr_eq q z hk hi', hess_mul q hs.sym x hk hi', if_pos (by omega)]
  unfold lagUx
  have e1 : ∑ c ∈ range (q.st k).nux, (q.st k).H i c * (fillOut q old x z).ux k c
      = ∑ j ∈ range (q.nx k + q.nu k), (q.st k).H i j * x (off (nv q) k + j) := by
    rw [show q.nx k + q.nu k = (q.st k).nux by omega]
    refine sum_congr rfl fun c hc => ?_
    have := Finset.mem_range.1 hc
    rw [fill_ux q old x z hk (by omega)]; rfl
  have e2 : (if k < q.N then ∑ c ∈ range (q.nx (k + 1)), (q.st k).BAbt i c * (fillOut q old x z).pi k c else 0)
      = if k < q.N then ∑ j ∈ range (q.nx (k + 1)), (q.st k).BAbt i j * z (off (dynLen q) k + j) else 0 := by
    split
    · rename_i hN
      exact sum_congr rfl fun c hc => by rw [fill_pi q old x z hN (Finset.mem_range.1 hc)]
    · rfl
  have e3 : (∑ j ∈ range (q.st k).nb, if (q.st k).idxb j = i then
      (fillOut q old x z).lam k j - (fillOut q old x z).lam k ((q.st k).m + j) else 0)
      = ∑ j ∈ range (q.st k).nb, if (q.st k).idxb j = i then
          z (c0 q k + j) - z (c0 q k + ((q.st k).nb + (q.st k).ng + j)) else 0 := by
    refine sum_congr rfl fun j hj => ?_
    have := Finset.mem_range.1 hj
    have hm : (q.st k).m = (q.st k).nb + (q.st k).ng := rfl
    rw [fill_lam q old x z hk (by omega), fill_lam q old x z hk (by omega)]; rfl
  have e4 : (∑ j ∈ range (q.st k).ng, (q.st k).DCt i j *
      ((fillOut q old x z).lam k ((q.st k).nb + j) - (fillOut q old x z).lam k ((q.st k).m + ((q.st k).nb + j))))
      = ∑ j ∈ range (q.st k).ng, (q.st k).DCt i j *
          (z (c0 q k + ((q.st k).nb + j)) - z (c0 q k + ((q.st k).nb + (q.st k).ng + ((q.st k).nb + j)))) := by
    refine sum_congr rfl fun j hj => ?_
    have := Finset.mem_range.1 hj
    have hm : (q.st k).m = (q.st k).nb + (q.st k).ng := rfl
    rw [fill_lam q old x z hk (by omega), fill_lam q old x z hk (by omega)]; rfl
  rw [e1, e2, e3, e4]
  have e5 : dot (cE q k i) z = dot (varE q k i) z -
      (if 0 < k ∧ q.nu k ≤ i then (fillOut q old x z).pi (k - 1) (i - q.nu k) else 0) := by
    unfold cE pick
    rw [if_pos (by omega), if_pos (by omega)]
    by_cases hu : i < q.nu k
    · rw [if_pos hu, if_neg (by omega), sub_zero]
    · rw [if_neg hu, dot_append, show q.nu k + (i - q.nu k) = i by omega]
      unfold eyeE
      by_cases h0 : 0 < k
      · rw [if_pos h0, if_pos ⟨h0, by omega⟩, dot_one]
        dsimp only
        rw [eye_row q h0 hk, fill_pi q old x z (by omega) (by rw [Nat.sub_add_cancel h0]; omega)]
        ring
      · rw [if_neg h0, if_neg (by omega), dot_nil]; ring
  rw [e5, dot_var q hs.inj]
  ring

/-- stationarity of the slacks -/
theorem stat_sl (hs : Supported q) (hin : InsideB q) (mem : Mem K) {k i : Nat} (hk : k ≤ q.N) (hi : i < (q.st k).ns) :
    (problem q (updateMemory true q mem)).P.symMul (numVars q) x (off (nv q) k + ((q.st k).nux + i)) +
      (problem q (updateMemory true q mem)).q (off (nv q) k + ((q.st k).nux + i)) +
      (problem q (updateMemory true q mem)).A.mulTr (numConstr q) z (off (nv q) k + ((q.st k).nux + i))
      = lagSl q (fillOut q old x z) k i := by
  have hx := hs.wf.nux k
  have hn := nv_eq q k
  have hi' : (q.st k).nux + i < nv q k := by omega
  have hg : (problem q (updateMemory true q mem)).q (off (nv q) k + ((q.st k).nux + i)) = (q.st k).g ((q.st k).nux + i) :=
    gradient_get q hk hi'
  rw [problem_A, problem_P q hin, hg, mulTr_eq q z hk hi', hess_mul q hs.sym x hk hi', if_neg (by omega)]
  unfold lagSl cE pick
  rw [if_pos (by omega), if_neg (by omega), slE, dot_append, dot_soft, dot_one, fill_ux q old x z hk hi', fill_slk q old x z hk (by omega),
    show (q.st k).nux + i - (q.nx k + q.nu k) = i by omega, show (q.st k).nux + i - (q.nu k + q.nx k) = i by omega, part]
  have e : (∑ r ∈ range (q.st k).m, if (q.st k).idxs r = (i : Int) then (fillOut q old x z).lam k r else 0)
      = ∑ r ∈ range (q.st k).m, if (q.st k).idxs r = (i : Int) then z (c0 q k + r) else 0 := by
    refine sum_congr rfl fun r hr => ?_
    rw [fill_lam q old x z hk (by have := Finset.mem_range.1 hr; omega)]
  rw [e]; ring

theorem stat_su (hs : Supported q) (hin : InsideB q) (mem : Mem K) {k i : Nat} (hk : k ≤ q.N) (hi : i < (q.st k).ns) :
    (problem q (updateMemory true q mem)).P.symMul (numVars q) x (off (nv q) k + ((q.st k).nux + ((q.st k).ns + i))) +
      (problem q (updateMemory true q mem)).q (off (nv q) k + ((q.st k).nux + ((q.st k).ns + i))) +
      (problem q (updateMemory true q mem)).A.mulTr (numConstr q) z (off (nv q) k + ((q.st k).nux + ((q.st k).ns + i)))
      = lagSu q (fillOut q old x z) k i := by
  have hx := hs.wf.nux k
  have hn := nv_eq q k
  have hi' : (q.st k).nux + ((q.st k).ns + i) < nv q k := by omega
  have hg : (problem q (updateMemory true q mem)).q (off (nv q) k + ((q.st k).nux + ((q.st k).ns + i)))
      = (q.st k).g ((q.st k).nux + ((q.st k).ns + i)) := gradient_get q hk hi'
  rw [problem_A, problem_P q hin, hg, mulTr_eq q z hk hi', hess_mul q hs.sym x hk hi', if_neg (by omega)]
  unfold lagSu cE pick
  rw [if_neg (by omega), suE, dot_append, dot_soft, dot_one, fill_ux q old x z hk hi', fill_slk q old x z hk (by omega),
    show (q.st k).nux + ((q.st k).ns + i) - (q.nx k + q.nu k) = (q.st k).ns + i by omega,
    show (q.st k).nux + ((q.st k).ns + i) - (q.nu k + q.nx k + (q.st k).ns) = i by omega, part]
  have e : (∑ r ∈ range (q.st k).m, if (q.st k).idxs r = (i : Int) then (fillOut q old x z).lam k ((q.st k).m + r) else 0)
      = ∑ r ∈ range (q.st k).m, if (q.st k).idxs r = (i : Int) then z (c0 q k + (q.st k).nb + (q.st k).ng + r) else 0 := by
    refine sum_congr rfl fun r hr => ?_
    have := Finset.mem_range.1 hr
    rw [fill_lam q old x z hk (by omega), show c0 q k + ((q.st k).m + r) = c0 q k + (q.st k).nb + (q.st k).ng + r by
      have hm : (q.st k).m = (q.st k).nb + (q.st k).ng := rfl
      omega]
  rw [e, show s0 q k + (q.st k).ns + i = s0 q k + ((q.st k).ns + i) by omega]; ring

/-- C58: a point is feasible for the cone problem handed to Clarabel exactly if it is feasible for the stage-wise QP. -/
theorem C58_feasible (hs : Supported q) (mem : Mem K) [IsOrderedRing K] :
    ((∀ r < conStart q, (problem q (updateMemory true q mem)).A.mulVec (numVars q) x r = (problem q (updateMemory true q mem)).b r) ∧
      (∀ r, conStart q ≤ r → r < numConstr q →
        (problem q (updateMemory true q mem)).A.mulVec (numVars q) x r ≤ (problem q (updateMemory true q mem)).b r)) ↔
    Feasible q (fillOut q old x z).ux := by
  have hm1 : ∀ k ≤ q.N, ∀ r, (q.st k).mask r ≠ 0 := fun k hk r => by rw [hs.mask k hk r]; exact one_ne_zero
  have hcong : ∀ k ≤ q.N, (∀ r < (q.st k).m, (q.st k).gapL ((fillOut q old x z).ux k) r = (q.st k).gapL (part q x k) r) ∧
      (∀ r < (q.st k).m, (q.st k).gapU ((fillOut q old x z).ux k) r = (q.st k).gapU (part q x k) r) ∧
      (∀ s < 2 * (q.st k).ns, (q.st k).gapS ((fillOut q old x z).ux k) s = (q.st k).gapS (part q x k) s) := by
    intro k hk
    have hu : ∀ i < nv q k, (fillOut q old x z).ux k i = part q x k i := fun i hi => fill_ux q old x z hk hi
    refine ⟨?_, ?_, ?_⟩
    · intro r hr
      unfold Stage.gapL
      rw [lhs_congr q hs.wf hu hr, (sl_congr q hs.wf hu hr).1]
    · intro r hr
      unfold Stage.gapU
      rw [lhs_congr q hs.wf hu hr, (sl_congr q hs.wf hu hr).2]
    · intro s hs'
      unfold Stage.gapS
      have := nv_eq q k
      rw [hu _ (by rw [hs.wf.nux k]; omega)]
  have hdyn : ∀ k < q.N, ∀ j < q.nx (k + 1),
      ((∑ r ∈ range (q.st k).nux, (q.st k).BAbt r j * (fillOut q old x z).ux k r) + (q.st k).b j
        = (fillOut q old x z).ux (k + 1) (q.nu (k + 1) + j)) ↔
      ((∑ r ∈ range (q.st k).nux, (q.st k).BAbt r j * part q x k r) + (q.st k).b j = part q x (k + 1) (q.nu (k + 1) + j)) := by
    intro k hk j hj
    rw [fill_ux q old x z (show k + 1 ≤ q.N from hk) (by have := nv_eq q (k + 1); omega)]
    rw [sum_congr rfl fun r hr => by
      have := Finset.mem_range.1 hr
      rw [fill_ux q old x z (show k ≤ q.N by omega) (by have := nv_eq q k; have := hs.wf.nux k; omega)]]
  constructor
  · rintro ⟨heq, hle⟩
    constructor
    case dyn =>
      intro k hk j hj
      exact (hdyn k hk j hj).2 ((rows_dyn q x mem hk hj hs.wf).1 (heq _ (dyn_lt q hk hj)))
    case low =>
      intro k hk r hr _
      have h := row_range q hk
      rw [(hcong k hk).1 r hr, ← (rows_gap q x hs mem hk).1 r hr, sub_nonneg]
      exact hle _ (h.1 r (by omega)).1 (h.1 r (by omega)).2
    case upp =>
      intro k hk r hr _
      have h := row_range q hk
      rw [(hcong k hk).2.1 r hr, ← (rows_gap q x hs mem hk).2.1 r hr, sub_nonneg]
      exact hle _ (h.1 _ (by omega)).1 (h.1 _ (by omega)).2
    case slk =>
      intro k hk s hs' _
      have h := row_range q hk
      rw [(hcong k hk).2.2 s hs', ← (rows_gap q x hs mem hk).2.2 s hs', sub_nonneg]
      exact hle _ (h.2 s hs').1 (h.2 s hs').2
  · intro hf
    constructor
    · intro r hr
      obtain ⟨k, hk, i, hi, e⟩ := off_cases (dynLen q) q.N r (by rw [← dyn_last]; exact hr)
      have hi' : i < q.nx (k + 1) := by rwa [show dynLen q k = q.nx (k + 1) from if_pos hk] at hi
      rw [e]
      exact (rows_dyn q x mem hk hi' hs.wf).2 ((hdyn k hk i hi').1 (hf.dyn k hk i hi'))
    · intro r h1 h2
      obtain ⟨k, hk, ⟨j, hj, e⟩ | ⟨j, hj, e⟩ | ⟨s, hs', e⟩⟩ := row_cases q h1 h2
      · rw [e, ← sub_nonneg, (rows_gap q x hs mem hk).1 j hj, ← (hcong k hk).1 j hj]
        exact hf.low k hk j hj (hm1 k hk _)
      · rw [e, ← sub_nonneg, (rows_gap q x hs mem hk).2.1 j hj, ← (hcong k hk).2.1 j hj]
        exact hf.upp k hk j hj (hm1 k hk _)
      · rw [e, ← sub_nonneg, (rows_gap q x hs mem hk).2.2 s hs', ← (hcong k hk).2.2 s hs']
        exact hf.slk k hk s hs' (hm1 k hk _)

/-- C58: `(x, z)` satisfies the optimality conditions of the problem handed to Clarabel if and only if the iterate that
`fill_in_qp_out` makes of it satisfies the optimality conditions of the stage-wise QP, multipliers included.
Missing from the full claim: QPs with one-sided constraints (`C58_mask_ignored`), with two bounds on one variable, and those
for which the right-hand side update reaches into the Hessian (`C58_hessian_corrupted`). -/
theorem C58_kkt_partial (hs : Supported q) (hin : InsideB q) (mem : Mem K) [IsOrderedRing K] :
    (problem q (updateMemory true q mem)).Kkt x z ↔ Kkt q (fillOut q old x z) := by
  have hm1 : ∀ k ≤ q.N, ∀ r, (q.st k).mask r ≠ 0 := fun k hk r => by rw [hs.mask k hk r]; exact one_ne_zero
  have hfe := C58_feasible q old x z hs mem
  have hcong : ∀ k ≤ q.N, (∀ r < (q.st k).m, (q.st k).gapL ((fillOut q old x z).ux k) r = (q.st k).gapL (part q x k) r) ∧
      (∀ r < (q.st k).m, (q.st k).gapU ((fillOut q old x z).ux k) r = (q.st k).gapU (part q x k) r) ∧
      (∀ s < 2 * (q.st k).ns, (q.st k).gapS ((fillOut q old x z).ux k) s = (q.st k).gapS (part q x k) s) := by
    intro k hk
    have hu : ∀ i < nv q k, (fillOut q old x z).ux k i = part q x k i := fun i hi => fill_ux q old x z hk hi
    refine ⟨?_, ?_, ?_⟩
    · intro r hr
      unfold Stage.gapL
      rw [lhs_congr q hs.wf hu hr, (sl_congr q hs.wf hu hr).1]
    · intro r hr
      unfold Stage.gapU
      rw [lhs_congr q hs.wf hu hr, (sl_congr q hs.wf hu hr).2]
    · intro s hs'
      unfold Stage.gapS
      have := nv_eq q k
      rw [hu _ (by rw [hs.wf.nux k]; omega)]
  constructor
  · intro h
    have key : ∀ r, conStart q ≤ r → r < numConstr q → 0 ≤ z r ∧ z r * ((problem q (updateMemory true q mem)).b r -
        (problem q (updateMemory true q mem)).A.mulVec (numVars q) x r) = 0 := fun r h1 h2 => ⟨h.dual r h1 h2, h.comp r h1 h2⟩
    constructor
    case feas => exact hfe.1 ⟨h.eq, h.ineq⟩
    case statUx =>
      intro k hk r hr
      rw [← stat_ux q old x z hs hin mem hk hr]
      have hb := off_block (nv q) (show k < q.N + 1 by omega)
      have := nv_eq q k
      have := hs.wf.nux k
      exact h.stat _ (show _ < numVars q by unfold numVars; omega)
    case statSl =>
      intro k hk r hr
      rw [← stat_sl q old x z hs hin mem hk hr]
      have hb := off_block (nv q) (show k < q.N + 1 by omega)
      have := nv_eq q k
      have := hs.wf.nux k
      exact h.stat _ (show _ < numVars q by unfold numVars; omega)
    case statSu =>
      intro k hk r hr
      rw [← stat_su q old x z hs hin mem hk hr]
      have hb := off_block (nv q) (show k < q.N + 1 by omega)
      have := nv_eq q k
      have := hs.wf.nux k
      exact h.stat _ (show _ < numVars q by unfold numVars; omega)
    case low =>
      intro k hk r hr
      have hr' := (row_range q hk).1 r (by omega)
      have := key _ hr'.1 hr'.2
      rw [(rows_gap q x hs mem hk).1 r hr] at this
      rw [fill_lam q old x z hk (by omega), (hcong k hk).1 r hr]
      exact ⟨this.1, fun h0 => absurd h0 (hm1 k hk _), fun _ => this.2⟩
    case upp =>
      intro k hk r hr
      have hr' := (row_range q hk).1 ((q.st k).m + r) (by omega)
      have := key _ hr'.1 hr'.2
      rw [(rows_gap q x hs mem hk).2.1 r hr] at this
      rw [fill_lam q old x z hk (by omega), (hcong k hk).2.1 r hr]
      exact ⟨this.1, fun h0 => absurd h0 (hm1 k hk _), fun _ => this.2⟩
    case slk =>
      intro k hk s hs'
      have hr' := (row_range q hk).2 s hs'
      have := key _ hr'.1 hr'.2
      rw [(rows_gap q x hs mem hk).2.2 s hs'] at this
      rw [fill_slk q old x z hk hs', (hcong k hk).2.2 s hs']
      exact ⟨this.1, fun h0 => absurd h0 (hm1 k hk _), fun _ => this.2⟩
  · intro h
    obtain ⟨heq, hle⟩ := hfe.2 h.feas
    have key : ∀ r, conStart q ≤ r → r < numConstr q → 0 ≤ z r ∧ z r * ((problem q (updateMemory true q mem)).b r -
        (problem q (updateMemory true q mem)).A.mulVec (numVars q) x r) = 0 := by
      intro r h1 h2
      obtain ⟨k, hk, ⟨j, hj, e⟩ | ⟨j, hj, e⟩ | ⟨s, hs', e⟩⟩ := row_cases q h1 h2
      · have := h.low k hk j hj
        rw [fill_lam q old x z hk (by omega), (hcong k hk).1 j hj] at this
        rw [e, (rows_gap q x hs mem hk).1 j hj]
        exact ⟨this.1, this.2.2 (hm1 k hk _)⟩
      · have := h.upp k hk j hj
        rw [fill_lam q old x z hk (by omega), (hcong k hk).2.1 j hj] at this
        rw [e, (rows_gap q x hs mem hk).2.1 j hj]
        exact ⟨this.1, this.2.2 (hm1 k hk _)⟩
      · have := h.slk k hk s hs'
        rw [fill_slk q old x z hk hs', (hcong k hk).2.2 s hs'] at this
        rw [e, (rows_gap q x hs mem hk).2.2 s hs']
        exact ⟨this.1, this.2.2 (hm1 k hk _)⟩
    constructor
    case eq => exact heq
    case ineq => exact hle
    case dual => exact fun r h1 h2 => (key r h1 h2).1
    case comp => exact fun r h1 h2 => (key r h1 h2).2
    case stat =>
      intro c hc
      obtain ⟨k, hk, i, hi, e⟩ := off_cases (nv q) (q.N + 1) c hc
      have hn := nv_eq q k
      have hx := hs.wf.nux k
      rw [e]
      show (problem q (updateMemory true q mem)).P.symMul (numVars q) x _ + (problem q (updateMemory true q mem)).q _ +
        (problem q (updateMemory true q mem)).A.mulTr (numConstr q) z _ = 0
      by_cases h1 : i < (q.st k).nux
      · rw [stat_ux q old x z hs hin mem (by omega) h1]
        exact h.statUx k (by omega) i h1
      · by_cases h2 : i < (q.st k).nux + (q.st k).ns
        · rw [show i = (q.st k).nux + (i - (q.st k).nux) by omega, stat_sl q old x z hs hin mem (by omega) (by omega)]
          exact h.statSl k (by omega) _ (by omega)
        · rw [show i = (q.st k).nux + ((q.st k).ns + (i - (q.st k).nux - (q.st k).ns)) by omega,
            stat_su q old x z hs hin mem (by omega) (by omega)]
          exact h.statSu k (by omega) _ (by omega)

end kkt

/-- same dimensions, same bound and soft constraint indices; all numbers may differ -/
structure SameShape (q q' : Qp K) : Prop where
  N : q'.N = q.N
  nx : q'.nx = q.nx
  nu : q'.nu = q.nu
  st : ∀ k, (q'.st k).nb = (q.st k).nb ∧ (q'.st k).ng = (q.st k).ng ∧ (q'.st k).ns = (q.st k).ns ∧
    (q'.st k).idxb = (q.st k).idxb ∧ (q'.st k).idxs = (q.st k).idxs

omit [LinearOrder K] in
theorem structure_same (q q' : Qp K) (h : SameShape q q') :
    hessStructure q' = hessStructure q ∧ conStructure q' = conStructure q := by
  obtain ⟨hN, hnx, hnu, hs⟩ := h
  have h1 : nv q' = nv q := by funext k; simp only [nv, hnx, hnu, (hs k).2.2.1]
  have h2 : dynLen q' = dynLen q := by funext k; simp only [dynLen, hnx, hN]
  have h3 : conLen q' = conLen q := by funext k; simp only [conLen, (hs k).1, (hs k).2.1]
  have h4 : slkLen q' = slkLen q := by funext k; simp only [slkLen, (hs k).2.2.1]
  have h5 : boundOn q' = boundOn q := by funext k v; simp only [boundOn, (hs k).1, (hs k).2.2.2.1]
  have h6 : softRows q' = softRows q := by funext k v; simp only [softRows, (hs k).1, (hs k).2.1, (hs k).2.2.2.2]
  have h7 : conStart q' = conStart q := by simp only [conStart, h2, hN]
  have h8 : slkStart q' = slkStart q := by simp only [slkStart, h3, hN, h7]
  constructor
  · have : hessRows q' = hessRows q := by
      funext k; simp only [hessRows, h1, hnx, hnu, (hs k).2.2.1]
    rw [hessStructure, hessStructure, this, hN]
  · have hv : varRows q' = varRows q := by
      funext k v; simp only [varRows, hN, hnx, h2, h3, h5, h7, (hs k).1, (hs k).2.1]
    have : stageRows q' = stageRows q := by
      funext k
      have a1 : rowsU q' k = rowsU q k := by funext j; simp only [rowsU, hv]
      have a2 : rowsX q' k = rowsX q k := by funext j; simp only [rowsX, hv, h2, hnx, hnu]
      have a3 : rowsSl q' k = rowsSl q k := by funext j; simp only [rowsSl, h6, h3, h4, h7, h8]
      have a4 : rowsSu q' k = rowsSu q k := by
        funext j; simp only [rowsSu, h6, h3, h4, h7, h8, (hs k).1, (hs k).2.1, (hs k).2.2.1]
      simp only [stageRows, a1, a2, a3, a4, hnx, hnu, (hs k).2.2.1]
    rw [conStructure, conStructure, this, hN]

/-- the problem seen by the solver does not depend on the previous contents of the memory -/
theorem fresh_indep (q : Qp K) (mem mem' : Mem K) :
    (problem q (updateMemory true q mem)).P = (problem q (updateMemory true q mem')).P ∧
    (problem q (updateMemory true q mem)).A = (problem q (updateMemory true q mem')).A ∧
    (problem q (updateMemory true q mem)).q = (problem q (updateMemory true q mem')).q ∧
    ∀ r < numConstr q, (problem q (updateMemory true q mem)).b r = (problem q (updateMemory true q mem')).b r := by
  refine ⟨?_, by rw [problem_A, problem_A], rfl, ?_⟩
  · show (⟨(hessStructure q).p, (hessStructure q).i, read (updateMemory true q mem).buf (numConstr q) (hessStructure q).i.length⟩ : Csc K) =
      ⟨(hessStructure q).p, (hessStructure q).i, read (updateMemory true q mem').buf (numConstr q) (hessStructure q).i.length⟩
    congr 1
    unfold read
    refine List.map_congr_left fun i hi => ?_
    have := List.mem_range.1 hi
    rw [hessStructure_length] at this
    rw [buf_P q mem this, buf_P q mem' this]
  · intro r hr
    have hb : ∀ mem : Mem K, (problem q (updateMemory true q mem)).b
        = updateBounds q (write (conData q) (numConstr q + nnzmaxP q) (write (hessData q) (numConstr q) mem.buf)) := fun _ => rfl
    rw [hb, hb]
    obtain ⟨a1, a2, a3, -⟩ := updateBounds_spec q (write (conData q) (numConstr q + nnzmaxP q) (write (hessData q) (numConstr q) mem.buf))
    obtain ⟨c1, c2, c3, -⟩ := updateBounds_spec q (write (conData q) (numConstr q + nnzmaxP q) (write (hessData q) (numConstr q) mem'.buf))
    by_cases h : r < conStart q
    · obtain ⟨k, hk, i, hi, e⟩ := off_cases (dynLen q) q.N r (by rw [← dyn_last]; exact h)
      have hi' : i < q.nx (k + 1) := by rwa [show dynLen q k = q.nx (k + 1) from if_pos hk] at hi
      rw [e, a1 k hk i hi', c1 k hk i hi']
    · obtain ⟨k, hk, ⟨j, hj, e⟩ | ⟨j, hj, e⟩ | ⟨s, hs', e⟩⟩ := row_cases q (not_lt.1 h) hr
      · have hl : conLen q k = 2 * (q.st k).nb + 2 * (q.st k).ng := rfl
        have hm : (q.st k).m = (q.st k).nb + (q.st k).ng := rfl
        rw [e, a2 k hk j (by omega), c2 k hk j (by omega)]
      · have hl : conLen q k = 2 * (q.st k).nb + 2 * (q.st k).ng := rfl
        have hm : (q.st k).m = (q.st k).nb + (q.st k).ng := rfl
        rw [e, a2 k hk _ (by omega), c2 k hk _ (by omega)]
      · rw [e, a3 k hk s hs', c3 k hk s hs']

/-- C58, histories: after a first call with `q0` and any number of further calls, the problem
handed over for the QP `q` is the one a fresh memory would give: nothing of earlier calls is left in it. -/
theorem C58_history (q0 : Qp K) (hist : List (Qp K)) (q : Qp K) (hq : SameShape q0 q)
    (mem mem' : Mem K) :
    let seen := problem q (updateMemory false q (hist.foldl (fun m q' => updateMemory false q' m) (updateMemory true q0 mem)))
    let fresh := problem q (updateMemory true q mem')
    seen.n = fresh.n ∧ seen.m = fresh.m ∧ seen.mEq = fresh.mEq ∧ seen.P = fresh.P ∧ seen.A = fresh.A ∧ seen.q = fresh.q ∧
      ∀ r < fresh.m, seen.b r = fresh.b r := by
  intro seen fresh
  have inv : ∀ (l : List (Qp K)) (m : Mem K), m.P = hessStructure q0 ∧ m.A = conStructure q0 →
      (l.foldl (fun m q' => updateMemory false q' m) m).P = hessStructure q0 ∧
      (l.foldl (fun m q' => updateMemory false q' m) m).A = conStructure q0 := by
    intro l
    induction l with
    | nil => exact fun m h => h
    | cons a l ih => exact fun m h => ih _ h
  have h := inv hist (updateMemory true q0 mem) ⟨rfl, rfl⟩
  have e := structure_same q0 q hq
  set m := hist.foldl (fun m q' => updateMemory false q' m) (updateMemory true q0 mem) with hm
  have e2 : updateMemory false q m = updateMemory true q m := by
    obtain ⟨b1, q1, P1, A1⟩ := m
    obtain ⟨h1, h2⟩ := h
    dsimp only at h1 h2
    rw [← e.1] at h1
    rw [← e.2] at h2
    subst h1 h2
    rfl
  have f := fresh_indep q m mem'
  refine ⟨rfl, rfl, rfl, ?_, ?_, ?_, ?_⟩
  · show (problem q (updateMemory false q m)).P = _
    rw [e2]; exact f.1
  · show (problem q (updateMemory false q m)).A = _
    rw [e2]; exact f.2.1
  · show (problem q (updateMemory false q m)).q = _
    rw [e2]; exact f.2.2.1
  · intro r hr
    show (problem q (updateMemory false q m)).b r = _
    rw [e2]; exact f.2.2.2 r hr

/-- C58, what really happens to the Hessian: entry `i` of `P_nzval` is negated once for every stage `k` whose loop over
`2*nx[k+1]` entries runs past the end of `b` by more than `i`. -/
theorem C58_hessian_flips (q : Qp K) (mem : Mem K) (i : Nat) (hi : i < nnzmaxP q) :
    (problem q (updateMemory true q mem)).P.x[i]? =
      some ((-1) ^ ((range q.N).filter fun k => numConstr q + i < off (dynLen q) k + 2 * q.nx (k + 1)).card * (hessData q).getD i 0) := by
  show (read (updateMemory true q mem).buf (numConstr q) (hessStructure q).i.length)[i]? = _
  rw [hessStructure_length, read, List.getElem?_map, List.getElem?_range hi, Option.map_some, buf_P q mem hi]
  rfl

/-- the loop stays inside `b` as soon as the inequalities have at least as many rows as the largest state -/
theorem C58_inside (q : Qp K) (h : ∀ k < q.N, q.nx (k + 1) ≤ off (conLen q) (q.N + 1) + off (slkLen q) (q.N + 1)) : InsideB q := by
  intro k hk
  have h1 := off_block (dynLen q) (show k < q.N + 1 by omega)
  have e : dynLen q k = q.nx (k + 1) := if_pos hk
  have h2 := h k hk
  have h3 : conStart q = off (dynLen q) (q.N + 1) := rfl
  have h4 : slkStart q = off (conLen q) (q.N + 1) + conStart q := rfl
  rw [numConstr_eq]; omega

/-- masks do not enter the problem handed to Clarabel -/
theorem C58_mask_ignored (q : Qp K) (mask : Nat → Nat → K) (first : Bool) (mem : Mem K) :
    let q' : Qp K := { q with st := fun k => { q.st k with mask := mask k } }
    problem q' (updateMemory first q' mem) = problem q (updateMemory first q mem) := rfl

/-- statuses -/
theorem C58_status (s : ClStatus) : (status s = .success ↔ s = .solved) ∧ (status s = .maxIter ↔ s = .maxIterations) ∧
    (s = .other → status s = .qpFailure) := by cases s <;> simp [status]

/-! ## witnesses -/

/-- a stage without constraints -/
def free1 (h g : ℚ) : Stage ℚ where
  nux := 1
  nb := 0
  ng := 0
  ns := 0
  H := fun _ _ => h
  g := fun _ => g
  Z := fun _ => 0
  BAbt := fun _ _ => 1
  b := fun _ => 0
  DCt := fun _ _ => 0
  d := fun _ => 0
  mask := fun _ => 1
  idxb := fun _ => 0
  idxs := fun _ => -1

/-- one interval, one state, no control, no constraint: `min ½(x0² + x1²) + x1` subject to `x1 = x0` -/
def qFree : Qp ℚ where
  N := 1
  nx := fun _ => 1
  nu := fun _ => 0
  st := fun k => free1 1 (if k = 1 then 1 else 0)

/-- any memory -/
def mem0 : Mem ℚ := ⟨fun _ => 0, [], ⟨[], []⟩, ⟨[], []⟩⟩

/-- C58 fails: without inequality constraints the negation loop runs into the Hessian; the first entry changes sign, so that
for this strictly convex QP Clarabel is given the indefinite Hessian `diag(-1, 1)`. -/
theorem C58_hessian_corrupted : Supported qFree ∧ ¬ InsideB qFree ∧
    (problem qFree (updateMemory true qFree mem0)).P.x = [-1, 1] ∧ hessData qFree = [1, 1] ∧
    ∃ (old : Sol ℚ) (x z : Nat → ℚ), Kkt qFree (fillOut qFree old x z) ∧ ¬ (problem qFree (updateMemory true qFree mem0)).Kkt x z := by
  refine ⟨⟨⟨fun i => rfl, fun i j hj => absurd hj (Nat.not_lt_zero _), fun i r hr => absurd hr (Nat.not_lt_zero _),
    fun i r => Or.inr rfl⟩, fun _ _ _ _ _ _ => rfl, fun _ _ _ => rfl, fun k i hi => absurd hi (Nat.not_lt_zero _)⟩, ?_, by decide +kernel,
    by decide +kernel, ⟨fun _ _ => 0, fun _ _ => 0, fun _ _ => 0⟩, fun _ => -1/2, fun _ => 1/2, ?_, ?_⟩
  · intro h
    exact absurd (h 0 (by decide)) (by decide +kernel)
  · constructor
    case feas =>
      constructor
      · intro i hi c hc
        obtain rfl : i = 0 := by simp [qFree] at hi; omega
        obtain rfl : c = 0 := by simp [qFree] at hc; omega
        decide +kernel
      · intro i _ r hr; exact absurd hr (Nat.not_lt_zero _)
      · intro i _ r hr; exact absurd hr (Nat.not_lt_zero _)
      · intro i _ r hr; exact absurd hr (Nat.not_lt_zero _)
    case statUx =>
      intro i hi r hr
      obtain rfl : r = 0 := by simp [qFree, free1] at hr; omega
      have : i = 0 ∨ i = 1 := by simp [qFree] at hi; omega
      rcases this with rfl | rfl <;> decide +kernel
    case statSl => intro i _ k hk; exact absurd hk (Nat.not_lt_zero _)
    case statSu => intro i _ k hk; exact absurd hk (Nat.not_lt_zero _)
    case low => intro i _ k hk; exact absurd hk (Nat.not_lt_zero _)
    case upp => intro i _ k hk; exact absurd hk (Nat.not_lt_zero _)
    case slk => intro i _ k hk; exact absurd hk (Nat.not_lt_zero _)
  · intro h
    have := h.stat 0 (by decide +kernel)
    revert this
    decide +kernel

/-- a single stage with one bounded variable whose lower bound is switched off: `min ½ x² + x`, `x ≤ 5` -/
def qOneSided : Qp ℚ where
  N := 0
  nx := fun _ => 1
  nu := fun _ => 0
  st := fun _ => { free1 1 1 with nb := 1, d := fun i => if i = 0 then 0 else -5, mask := fun i => if i = 0 then 0 else 1 }

/-- C58 fails for one-sided constraints: the point `x = 0` solves the problem handed to Clarabel (the masked bound, whose
stored value is 0, is enforced), but not the QP. -/
theorem C58_one_sided_wrong : WF qOneSided ∧ InsideB qOneSided ∧
    ∃ (old : Sol ℚ) (x z : Nat → ℚ), (problem qOneSided (updateMemory true qOneSided mem0)).Kkt x z ∧
      ¬ Kkt qOneSided (fillOut qOneSided old x z) := by
  refine ⟨⟨fun i => rfl, ?_, ?_, ?_⟩, fun k hk => absurd hk (Nat.not_lt_zero _), ⟨fun _ _ => 0, fun _ _ => 0, fun _ _ => 0⟩,
    fun _ => 0, fun r => if r = 0 then 1 else 0, ?_, ?_⟩
  · intro i j _; exact Nat.zero_lt_one
  · intro i r _; exact Or.inl rfl
  · intro i r; show (if r = 0 then (0 : ℚ) else 1) = 0 ∨ _ = 1; by_cases h : r = 0
    · exact Or.inl (if_pos h)
    · exact Or.inr (if_neg h)
  · have hm : (problem qOneSided (updateMemory true qOneSided mem0)).m = 2 := by decide +kernel
    have hn : (problem qOneSided (updateMemory true qOneSided mem0)).n = 1 := by decide +kernel
    have he : (problem qOneSided (updateMemory true qOneSided mem0)).mEq = 0 := by decide +kernel
    constructor
    case stat =>
      intro c hc
      rw [hn] at hc
      obtain rfl : c = 0 := by omega
      decide +kernel
    case eq => intro r hr; rw [he] at hr; omega
    case ineq =>
      intro r _ hr
      rw [hm] at hr
      have : r = 0 ∨ r = 1 := by omega
      rcases this with rfl | rfl <;> decide +kernel
    case dual =>
      intro r _ _
      show (0 : ℚ) ≤ if r = 0 then 1 else 0
      split <;> norm_num
    case comp =>
      intro r _ hr
      rw [hm] at hr
      have : r = 0 ∨ r = 1 := by omega
      rcases this with rfl | rfl <;> decide +kernel
  · intro h
    have := (h.low 0 (Nat.le_refl _) 0 (by decide +kernel)).2.1 (by decide +kernel)
    revert this
    decide +kernel

/-- a single stage with a bounded variable and one general constraint -/
def qBoundGen : Qp ℚ where
  N := 0
  nx := fun _ => 1
  nu := fun _ => 0
  st := fun _ => { free1 1 1 with nb := 1, ng := 1, DCt := fun _ _ => 3, d := fun i => if i < 2 then -2 else -5 }

/-- the row indices of a column are not sorted when a bounded variable also appears in general constraints -/
theorem C58_unsorted : ¬ (problem qBoundGen (updateMemory true qBoundGen mem0)).A.Sorted (numVars qBoundGen) ∧
    (problem qBoundGen (updateMemory true qBoundGen mem0)).A.i = [0, 2, 1, 3] := by
  refine ⟨?_, by decide +kernel⟩
  intro h
  have := h 0 (by decide +kernel)
  revert this
  decide +kernel

/-! ## a QP that meets the hypotheses -/

/-- two stages with a control, bounds, a general row and a soft constraint -/
def qEx : Qp ℚ where
  N := 1
  nx := fun _ => 1
  nu := fun k => if k = 0 then 1 else 0
  st := fun k => if k = 0 then
      { free1 2 1 with nux := 2, nb := 1, ng := 1, ns := 1, idxb := fun _ => 0, idxs := fun r => if r = 1 then 0 else -1,
                       DCt := fun _ _ => 1, d := fun i => if i < 2 then -1 else if i < 4 then -1 else 0, Z := fun _ => 1 }
    else { free1 1 1 with nb := 1, d := fun _ => -3 }

example : Supported qEx ∧ InsideB qEx ∧ numVars qEx = 5 ∧ numConstr qEx = 9 ∧ (conStructure qEx).i.length = 15 := by
  refine ⟨⟨⟨?_, ?_, ?_, ?_⟩, ?_, ?_, ?_⟩, ?_, by decide +kernel, by decide +kernel, by decide +kernel⟩
  · intro i; by_cases h : i = 0
    · subst h; rfl
    · show (if i = 0 then _ else _ : Stage ℚ).nux = (if i = 0 then 1 else 0) + 1
      rw [if_neg h, if_neg h]; rfl
  · intro i j hj
    by_cases h : i = 0
    · subst h; exact Nat.zero_lt_two
    · show (if i = 0 then _ else _ : Stage ℚ).idxb j < (if i = 0 then _ else _ : Stage ℚ).nux
      rw [if_neg h]; exact Nat.zero_lt_one
  · intro i r hr
    by_cases h : i = 0
    · subst h
      show (if r = 1 then (0 : Int) else -1) = -1 ∨ _
      by_cases h1 : r = 1
      · exact Or.inr ⟨0, Nat.zero_lt_one, if_pos h1⟩
      · exact Or.inl (if_neg h1)
    · left
      show (if i = 0 then _ else _ : Stage ℚ).idxs r = -1
      rw [if_neg h]; rfl
  · intro i r; right
    by_cases h : i = 0
    · subst h; rfl
    · show (if i = 0 then _ else _ : Stage ℚ).mask r = 1
      rw [if_neg h]; rfl
  · intro k _ i _ j _
    by_cases h : k = 0
    · subst h; rfl
    · show (if k = 0 then _ else _ : Stage ℚ).H i j = (if k = 0 then _ else _ : Stage ℚ).H j i
      rw [if_neg h]; rfl
  · intro k _ r
    by_cases h : k = 0
    · subst h; rfl
    · show (if k = 0 then _ else _ : Stage ℚ).mask r = 1
      rw [if_neg h]; rfl
  · intro k i hi j hj _
    by_cases h : k = 0
    · subst h
      have h1 : i < 1 := hi
      have h2 : j < 1 := hj
      omega
    · have e : (qEx.st k).nb = 1 := by
        show (if k = 0 then _ else _ : Stage ℚ).nb = 1
        rw [if_neg h]
      rw [e] at hi hj; omega
  · intro k hk
    obtain rfl : k = 0 := by have : k < 1 := hk; omega
    decide +kernel

/-- the hypothesis of `C58_history` for two QPs with different numbers -/
example : SameShape qEx { qEx with st := fun k => { qEx.st k with g := fun _ => 7, d := fun _ => -9 } } :=
  ⟨rfl, rfl, rfl, fun _ => ⟨rfl, rfl, rfl, rfl, rfl⟩⟩

end Acados.SparseQp.Clarabel
