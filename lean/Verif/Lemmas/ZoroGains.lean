import Verif.Lemmas.ZoroRows
/-! The backward recursion and histories of updates in the Riccati modes. -/
namespace Acados.Zoro
open Matrix
set_option linter.unusedSectionVars false
variable {K : Type*} [Field K] [LinearOrder K] [IsStrictOrderedRing K] {d : Dims}

theorem ricCost_const (sq : K → K) (ds : Desc K d) (rd : RDesc K d) (n : Nlp K d) (l : Lin K d) (q : QpB K d)
    (bsq : Nat → Row d → K) (k : Nat) (x : Fin d.nx → K) (u : Fin d.nu → K) (h : rd.mode = .const) :
    ricCost sq ds rd n l q bsq k x u = lqCost rd.Q rd.R rd.S x u := by
  simp [ricCost, h, barrierWeight]

theorem ricCostE_const (sq : K → K) (ds : Desc K d) (rd : RDesc K d) (n : Nlp K d) (l : Lin K d) (q : QpB K d)
    (bsq : RowE d → K) (x : Fin d.nx → K) (h : rd.mode = .const) :
    ricCostE sq ds rd n l q bsq x = quad rd.Qe x := by
  simp [ricCostE, h, barrierWeight]

section
variable (sq : K → K) (ch : Chol K d) (ds : Desc K d) (rd : RDesc K d) (m : Mem K d) (l : Lin K d) (q : QpB K d)
  (n0 : Nlp K d)

theorem weight_nonneg {mode : RMode} {tau s b : K} (ht : 0 ≤ tau) (hb : mode ≠ .const → 0 < b ∧ 0 < s) :
    0 ≤ barrierWeight mode tau s b := by
  cases mode with
  | const => exact le_rfl
  | barrier1 => exact div_nonneg ht (sq_nonneg s)
  | barrier2 =>
    obtain ⟨h1, h2⟩ := hb (by decide)
    exact div_nonneg ht (by positivity)

theorem sum_nonneg' {α : Type*} (rows : List α) (f : α → K) (h : ∀ r ∈ rows, 0 ≤ f r) : 0 ≤ (rows.map f).sum :=
  List.sum_nonneg fun x hx => by
    obtain ⟨r, hr, rfl⟩ := List.mem_map.mp hx
    exact h r hr

theorem ricCost_ge (hc : CostOk rd) (bsq : Nat → Row d → K) (bsqE : RowE d → K)
    (hs : rd.mode ≠ .const → SlackPos sq ds q bsq bsqE) (k : Nat) (h1 : 1 ≤ k) (h2 : k < d.N)
    (x : Fin d.nx → K) (u : Fin d.nu → K) :
    lqCost rd.Q rd.R rd.S x u ≤ ricCost sq ds rd n0 l q bsq k x u := by
  unfold ricCost
  have a := sum_nonneg' ds.loT (fun r =>
      barrierWeight rd.mode rd.tau (slackLo (q.lo k r) (sq (bsq k r))) (sq (bsq k r)) * rowAt n0 l k 0 x u r ^ 2)
    (fun r hr => mul_nonneg (weight_nonneg hc.tau fun hm => ((hs hm).1 k h1 h2).1 r hr) (sq_nonneg _))
  have b := sum_nonneg' ds.hiT (fun r =>
      barrierWeight rd.mode rd.tau (slackHi (q.hi k r) (sq (bsq k r))) (sq (bsq k r)) * rowAt n0 l k 0 x u r ^ 2)
    (fun r hr => mul_nonneg (weight_nonneg hc.tau fun hm => ((hs hm).1 k h1 h2).2 r hr) (sq_nonneg _))
  linarith

theorem ricCostE_ge (hc : CostOk rd) (bsq : Nat → Row d → K) (bsqE : RowE d → K)
    (hs : rd.mode ≠ .const → SlackPos sq ds q bsq bsqE) (x : Fin d.nx → K) :
    quad rd.Qe x ≤ ricCostE sq ds rd n0 l q bsqE x := by
  unfold ricCostE
  have a := sum_nonneg' ds.loTE (fun r =>
      barrierWeight rd.mode rd.tau (slackLo (q.loE r) (sq (bsqE r))) (sq (bsqE r)) * rowAtE n0 l 0 x r ^ 2)
    (fun r hr => mul_nonneg (weight_nonneg hc.tau fun hm => (hs hm).2.1 r hr) (sq_nonneg _))
  have b := sum_nonneg' ds.hiTE (fun r =>
      barrierWeight rd.mode rd.tau (slackHi (q.hiE r) (sq (bsqE r))) (sq (bsqE r)) * rowAtE n0 l 0 x r ^ 2)
    (fun r hr => mul_nonneg (weight_nonneg hc.tau fun hm => (hs hm).2.2 r hr) (sq_nonneg _))
  linarith

/-- what stays in the Riccati memory -/
structure Keep (rm : RMem K d) : Prop where
  dct : DctOk ds n0 rm
  dcet : DcetOk ds n0 rm
  mats : rd.mode = .const → rm.Q = rd.Q ∧ rm.R = rd.R ∧ rm.S = rd.S

/-- the rows the statement is about: no general linear rows and, with a barrier, no nonlinear rows before the
end and terminal bounds on the states of the path bounds -/
structure RowsOk : Prop where
  g : ∀ p ∈ rowsOf ds, p.2.kind ≠ .g
  gE : ∀ p ∈ rowsOfE ds, p.2.kind ≠ .g
  h : rd.mode ≠ .const → ∀ p ∈ rowsOf ds, p.2.kind ≠ .h
  idx : rd.mode ≠ .const → EndIdx ds n0

/-- cost from stage `k` on: a quadratic form of the state and the deviations from the feedback -/
def Val (gain : Nat → Mat K d.nu d.nx) (M : Nat → Mat K d.nu d.nu) (P : Mat K d.nx d.nx) (k : Nat) : Prop :=
  ∀ x u, Dyn l k x u →
    costFrom (ricCost sq ds rd n0 l q m.bsq) (ricCostE sq ds rd n0 l q m.bsqE) k x u
      = quad P (x k) + ∑ j ∈ Finset.Ico k d.N, quad (M j) (u j + gain j *ᵥ x j)

structure BInv (c : Nat) (s : RMem K d × Mat K d.nx d.nx) : Prop where
  keep : Keep ds rd n0 s.1
  sym : Sym s.2
  psd : Psd s.2
  val : ∃ M : Nat → Mat K d.nu d.nu, (∀ j, c ≤ j → j < d.N → Pd (M j)) ∧
    Val sq ds rd m l q n0 s.1.gain M s.2 c ∧
    ∀ k, c ≤ k → k ≤ d.N → ∃ P, Val sq ds rd m l q n0 s.1.gain M P k

variable (hch : CholOk ch) (hc : CostOk rd) (hr : RowsOk ds rd n0)
  (hs : rd.mode ≠ .const → SlackPos sq ds q m.bsq m.bsqE)
include hch hc hr hs

theorem back_start (rm : RMem K d) (hk : Keep ds rd n0 rm) :
    BInv sq ds rd m l q n0 d.N
      (if rd.mode = .const then (rm, rd.Qe) else (quadTerminal sq ds rd m l q rm, (quadTerminal sq ds rd m l q rm).Q)) := by
  have key : ∀ (rm' : RMem K d) (P : Mat K d.nx d.nx), (∀ x, quad P x = ricCostE sq ds rd n0 l q m.bsqE x) →
      ∀ gain M, Val sq ds rd m l q n0 gain M P d.N := by
    intro rm' P hP gain M x u _
    unfold costFrom
    rw [Finset.Ico_self, Finset.sum_empty, Finset.sum_empty, zero_add, add_zero, hP]
  by_cases hm : rd.mode = .const
  · rw [if_pos hm]
    have hv := key rm rd.Qe (fun x => (ricCostE_const sq ds rd n0 l q m.bsqE x hm).symm)
    refine ⟨hk, hc.symQe, hc.psdE, fun _ => 0, fun j h1 h2 => by omega, hv _ _, fun k h1 h2 => ?_⟩
    obtain rfl : k = d.N := by omega
    exact ⟨_, hv _ _⟩
  · rw [if_neg hm]
    obtain ⟨a, b, c⟩ := terminal_cost sq ds rd m l q n0 rm hm hk.dcet hr.gE (hr.idx hm)
    have hv := key rm _ b
    refine ⟨⟨hk.dct, a, fun h => absurd h hm⟩, c hc.symQe, fun x => ?_, fun _ => 0, fun j h1 h2 => by omega, hv _ _,
      fun k h1 h2 => ?_⟩
    · rw [b]
      exact le_trans (hc.psdE x) (ricCostE_ge sq ds rd l q n0 hc m.bsq m.bsqE hs x)
    · obtain rfl : k = d.N := by omega
      exact ⟨_, hv _ _⟩

theorem back_step (k : Nat) (h1 : 1 ≤ k) (h2 : k < d.N) (s : RMem K d × Mat K d.nx d.nx)
    (h : BInv sq ds rd m l q n0 (k + 1) s) : BInv sq ds rd m l q n0 k (ricStep sq ch ds rd m l q s k) := by
  have hst : ∃ rm : RMem K d, rm = (if rd.mode = .const then s.1 else quadStage sq ds rd m l q k s.1) ∧
      Keep ds rd n0 rm ∧ rm.gain = s.1.gain ∧ Sym rm.Q ∧ Sym rm.R ∧
      ∀ x u, lqCost rm.Q rm.R rm.S x u = ricCost sq ds rd n0 l q m.bsq k x u := by
    by_cases hm : rd.mode = .const
    · obtain ⟨e1, e2, e3⟩ := h.keep.mats hm
      refine ⟨s.1, by rw [if_pos hm], h.keep, rfl, by rw [e1]; exact hc.symQ, by rw [e2]; exact hc.symR, fun x u => ?_⟩
      rw [e1, e2, e3, ricCost_const sq ds rd n0 l q m.bsq k x u hm]
    · obtain ⟨a, b, c, e⟩ := stage_cost sq ds rd m l q n0 k s.1 hm h.keep.dct hr.g (hr.h hm)
      refine ⟨quadStage sq ds rd m l q k s.1, by rw [if_neg hm], ⟨?_, h.keep.dcet, fun h => absurd h hm⟩, rfl,
        c hc.symQ, e hc.symR, b⟩
      intro r hr'
      rw [a]; exact h.keep.dct r hr'
  obtain ⟨rm, hrm, hkeep, hgain, sQ, sR, hcost⟩ := hst
  have hst : StageOk rm.Q rm.R rm.S := by
    refine ⟨sQ, sR, fun x u => ?_, fun u hu => ?_⟩
    · rw [hcost]
      exact le_trans (hc.psd x u) (ricCost_ge sq ds rd l q n0 hc m.bsq m.bsqE hs k h1 h2 x u)
    · have e : ∀ (Q : Mat K d.nx d.nx) (R : Mat K d.nu d.nu) S, lqCost Q R S 0 u = quad R u := fun Q R S => by
        simp [lqCost, quad_zero_vec]
      rw [← e rm.Q rm.R rm.S, hcost]
      refine lt_of_lt_of_le ?_ (ricCost_ge sq ds rd l q n0 hc m.bsq m.bsqE hs k h1 h2 0 u)
      rw [e]; exact hc.pd u hu
  obtain ⟨M0, hM0, hsq, hsym, hpsd⟩ := step_ok ch hch rm.Q s.2 rm.R rm.S (l.A k) (l.B k) hst h.sym h.psd
  obtain ⟨M, hM, hv, hvs⟩ := h.val
  have e : ricStep sq ch ds rd m l q s k
      = ({ rm with gain := Function.update rm.gain k (ch.solveT (ch.potrf ((l.B k)ᵀ * s.2 * l.B k + rm.R))
            (ch.solveN (ch.potrf ((l.B k)ᵀ * s.2 * l.B k + rm.R)) ((l.B k)ᵀ * s.2 * l.A k + rm.S))) },
          ((l.A k)ᵀ * s.2) * l.A k + (-((ch.solveN (ch.potrf ((l.B k)ᵀ * s.2 * l.B k + rm.R)) ((l.B k)ᵀ * s.2 * l.A k + rm.S))ᵀ
          * ch.solveN (ch.potrf ((l.B k)ᵀ * s.2 * l.B k + rm.R)) ((l.B k)ᵀ * s.2 * l.A k + rm.S)) + rm.Q)) := by
    unfold ricStep; rw [← hrm]
  rw [e]
  generalize ch.solveT (ch.potrf ((l.B k)ᵀ * s.2 * l.B k + rm.R))
            (ch.solveN (ch.potrf ((l.B k)ᵀ * s.2 * l.B k + rm.R)) ((l.B k)ᵀ * s.2 * l.A k + rm.S)) = Kk at *
  generalize ((l.A k)ᵀ * s.2) * l.A k + (-((ch.solveN (ch.potrf ((l.B k)ᵀ * s.2 * l.B k + rm.R)) ((l.B k)ᵀ * s.2 * l.A k + rm.S))ᵀ
          * ch.solveN (ch.potrf ((l.B k)ᵀ * s.2 * l.B k + rm.R)) ((l.B k)ᵀ * s.2 * l.A k + rm.S)) + rm.Q) = P at *
  have hsum : ∀ (i : Nat) (x : Nat → Fin d.nx → K) (u : Nat → Fin d.nu → K), k + 1 ≤ i →
      ∑ j ∈ Finset.Ico i d.N, quad (Function.update M k M0 j) (u j + Function.update rm.gain k Kk j *ᵥ x j)
      = ∑ j ∈ Finset.Ico i d.N, quad (M j) (u j + s.1.gain j *ᵥ x j) := by
    intro i x u hi
    refine Finset.sum_congr rfl fun j hj => ?_
    have : j ≠ k := by have := (Finset.mem_Ico.mp hj).1; omega
    rw [Function.update_of_ne this, Function.update_of_ne this, hgain]
  have hk : Val sq ds rd m l q n0 (Function.update rm.gain k Kk) (Function.update M k M0) P k := by
    intro x u hd
    have hd' : Dyn l (k + 1) x u := fun j a b => hd j (by omega) b
    have h3 := hv x u hd'
    unfold costFrom at h3 ⊢
    rw [Finset.sum_eq_sum_Ico_succ_bot h2, Finset.sum_eq_sum_Ico_succ_bot h2, hsum (k + 1) x u le_rfl,
      Function.update_self, Function.update_self]
    have h4 := hsq (x k) (u k)
    rw [hcost, ← hd k le_rfl h2] at h4
    linear_combination h3 + h4
  refine ⟨⟨hkeep.dct, hkeep.dcet, hkeep.mats⟩, hsym, hpsd, Function.update M k M0, fun j a b => ?_, hk, fun i a b => ?_⟩
  · by_cases hj : j = k
    · subst hj; rw [Function.update_self]; exact hM0
    · rw [Function.update_of_ne hj]; exact hM j (by omega) b
  · by_cases hi : i = k
    · subst hi; exact ⟨P, hk⟩
    · obtain ⟨Pi, hPi⟩ := hvs i (by omega) b
      refine ⟨Pi, fun x u hd => ?_⟩
      show _ = _ + ∑ j ∈ Finset.Ico i d.N, quad (Function.update M k M0 j) (u j + Function.update rm.gain k Kk j *ᵥ x j)
      rw [hsum i x u (by omega)]
      exact hPi x u hd

theorem back_fold (s : RMem K d × Mat K d.nx d.nx) (h : BInv sq ds rd m l q n0 d.N s) (i : Nat) (hi : i ≤ d.N - 1) :
    BInv sq ds rd m l q n0 (d.N - i)
      (((List.range i).map fun i => d.N - 1 - i).foldl (ricStep sq ch ds rd m l q) s) := by
  induction i with
  | zero => exact h
  | succ i ih =>
    rw [List.range_succ, List.map_append, List.foldl_append]
    have h' := ih (by omega)
    have e : d.N - i = d.N - 1 - i + 1 := by omega
    rw [e] at h'
    have := back_step sq ch ds rd m l q n0 hch hc hr hs (d.N - 1 - i) (by omega) (by omega) _ h'
    rw [show d.N - (i + 1) = d.N - 1 - i by omega]
    exact this

theorem riccati_spec (hN : 0 < d.N) (rm : RMem K d) (hk : Keep ds rd n0 rm) :
    Keep ds rd n0 (riccati sq ch ds rd m l q rm) ∧ (riccati sq ch ds rd m l q rm).gain 0 = 0 ∧
    ∃ M : Nat → Mat K d.nu d.nu, (∀ j, 1 ≤ j → j < d.N → Pd (M j)) ∧
      ∀ k, 1 ≤ k → k ≤ d.N → ∃ P, Val sq ds rd m l q n0 (riccati sq ch ds rd m l q rm).gain M P k := by
  have h := back_fold sq ch ds rd m l q n0 hch hc hr hs _
    (back_start sq ch ds rd m l q n0 hch hc hr hs rm hk) (d.N - 1) le_rfl
  rw [show d.N - (d.N - 1) = 1 by omega] at h
  have e0 : riccati sq ch ds rd m l q rm = (fun s : RMem K d × Mat K d.nx d.nx =>
      { s.1 with gain := Function.update s.1.gain 0 0 }) (((List.range (d.N - 1)).map fun i => d.N - 1 - i).foldl
        (ricStep sq ch ds rd m l q) (if rd.mode = .const then (rm, rd.Qe)
          else (quadTerminal sq ds rd m l q rm, (quadTerminal sq ds rd m l q rm).Q))) := rfl
  rw [e0]
  clear e0
  generalize (((List.range (d.N - 1)).map fun i => d.N - 1 - i).foldl (ricStep sq ch ds rd m l q)
    (if rd.mode = .const then (rm, rd.Qe) else (quadTerminal sq ds rd m l q rm, (quadTerminal sq ds rd m l q rm).Q))) = s at *
  refine ⟨⟨h.keep.dct, h.keep.dcet, h.keep.mats⟩,
    (Function.update_self .. : Function.update s.1.gain 0 0 0 = 0), ?_⟩
  obtain ⟨M, hM, -, hv⟩ := h.val
  refine ⟨M, hM, fun k h1 h2 => ?_⟩
  obtain ⟨P, hP⟩ := hv k h1 h2
  refine ⟨P, fun x u hd => ?_⟩
  rw [hP x u hd]
  congr 1
  refine Finset.sum_congr rfl fun j hj => ?_
  have : j ≠ 0 := by have := (Finset.mem_Ico.mp hj).1; omega
  show _ = quad (M j) (u j + Function.update s.1.gain 0 0 j *ᵥ x j)
  rw [Function.update_of_ne this]

end

/-- the Riccati memory is kept whatever the linear algebra does -/
theorem quadTerminal_keep (sq : K → K) (ds : Desc K d) (rd : RDesc K d) (m : Mem K d) (l : Lin K d) (q : QpB K d)
    (n0 : Nlp K d) (rm : RMem K d) (h0 : DcetOk ds n0 rm) : DcetOk ds n0 (quadTerminal sq ds rd m l q rm) := by
  obtain ⟨-, a3⟩ := overRowsE_spec sq rd m l q (rowsOfE ds) 0 ⟨rm.dcet, rm.dcet⟩
  simp only [Nat.zero_add] at a3
  intro r hr hk
  show (overRows (quadRowE sq rd m l q) 0 (rowsOfE ds) ⟨rm.dcet, rm.dcet⟩).dct r = _
  rw [(a3 r hr).1]
  have g3 := h0 r hr hk
  unfold gE
  generalize (rowsOfE ds)[r] = p at *
  obtain ⟨b, r'⟩ := p
  cases r' with
  | bx i => exact g3
  | g i => exact g3
  | h i => exact absurd rfl hk

theorem riccati_keep (sq : K → K) (ch : Chol K d) (ds : Desc K d) (rd : RDesc K d) (m : Mem K d) (l : Lin K d)
    (q : QpB K d) (n0 : Nlp K d) (hr : RowsOk ds rd n0) (rm : RMem K d) (hk : Keep ds rd n0 rm) :
    Keep ds rd n0 (riccati sq ch ds rd m l q rm) := by
  have hstep : ∀ s k, Keep ds rd n0 s.1 → Keep ds rd n0 (ricStep sq ch ds rd m l q s k).1 := by
    intro s k h
    by_cases hm : rd.mode = .const
    · unfold ricStep; rw [if_pos hm]; exact ⟨h.dct, h.dcet, h.mats⟩
    · unfold ricStep; rw [if_neg hm]
      refine ⟨?_, h.dcet, fun hh => absurd hh hm⟩
      have := (stage_cost sq ds rd m l q n0 k s.1 hm h.dct hr.g (hr.h hm)).1
      intro r hr'
      show (quadStage sq ds rd m l q k s.1).dct r = _
      rw [this]; exact h.dct r hr'
  have hfold : ∀ (ks : List Nat) s, Keep ds rd n0 s.1 → Keep ds rd n0 (ks.foldl (ricStep sq ch ds rd m l q) s).1 := by
    intro ks
    induction ks with
    | nil => exact fun s h => h
    | cons k ks ih => exact fun s h => ih _ (hstep s k h)
  have hstart : Keep ds rd n0 (if rd.mode = .const then (rm, rd.Qe)
      else (quadTerminal sq ds rd m l q rm, (quadTerminal sq ds rd m l q rm).Q)).1 := by
    split
    · exact hk
    · rename_i hm
      exact ⟨hk.dct, quadTerminal_keep sq ds rd m l q n0 rm hk.dcet, fun h => absurd h hm⟩
  have := hfold ((List.range (d.N - 1)).map fun i => d.N - 1 - i) _ hstart
  exact ⟨this.dct, this.dcet, this.mats⟩

theorem initR_keep (ds : Desc K d) (rd : RDesc K d) (n0 : Nlp K d) : Keep ds rd n0 (initR ds rd n0) := by
  refine ⟨fun r hr => ?_, fun r hr _ => ?_, fun _ => ⟨rfl, rfl, rfl⟩⟩
  · simp [initR, rowFn, hr]
  · simp [initR, rowFn, hr]

theorem updateRic_ok {sq : K → K} {ch : Chol K d} {ds : Desc K d} {rd : RDesc K d} {l : Lin K d} {q : QpB K d}
    {data : List K} {m m' : Mem K d} {rm rm' : RMem K d} {n n' : Nlp K d} {out : Nat → K}
    (h : updateRic sq ch ds rd l q data m rm n = (.ok m' n' out, rm')) :
    ∃ str, streaming ds data = some str ∧ riccatiUb ds = false ∧
      rm' = riccati sq ch ds rd (readData ds str data m) l q rm ∧
      updateWith sq ds l rm'.gain data m n = .ok m' n' out := by
  unfold updateRic at h
  cases hs : streaming ds data with
  | none => rw [hs] at h; simp at h
  | some str =>
    rw [hs] at h
    simp only at h
    cases hu : riccatiUb ds with
    | true => rw [hu] at h; simp at h
    | false =>
      rw [hu] at h
      simp only [Bool.false_eq_true, if_false, Prod.mk.injEq] at h
      exact ⟨str, rfl, rfl, h.2.symm, by rw [← h.2]; exact h.1⟩

theorem reachR_inv {sq : K → K} {ch : Chol K d} {ds : Desc K d} {rd : RDesc K d} {n0 : Nlp K d} {m : Mem K d}
    {rm : RMem K d} (hr : RowsOk ds rd n0) (h : ReachR sq ch ds rd n0 m rm) : Reach sq ds n0 m ∧ Keep ds rd n0 rm := by
  induction h with
  | init b => exact ⟨.init b, initR_keep ds rd n0⟩
  | step _ hu ih =>
    obtain ⟨str, -, -, h1, h2⟩ := updateRic_ok hu
    refine ⟨.step ih.1 h2, ?_⟩
    rw [h1]
    exact riccati_keep sq ch ds rd _ _ _ n0 hr _ ih.2

end Acados.Zoro
