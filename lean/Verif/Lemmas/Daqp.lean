import Verif.Spec.Daqp
import Verif.Lemmas.DenseQp
import Mathlib.Tactic.Ring
import Mathlib.Tactic.FieldSimp
import Mathlib.Tactic.Linarith
import Mathlib.Tactic.LinearCombination
/-! Lemmas for the DAQP interface -/
namespace Acados.Daqp
open Finset
open Acados.DenseQp (DQp row coef slackOf idxsOf WF SS idxsOf_eq)
set_option linter.unusedSectionVars false

/-- a loop whose body changes index `idx ii` only, with distinct indices -/
theorem fold_local {S V : Type*} (view : S → Nat → V) (step : S → Nat → S) (idx : Nat → Nat) (F : Nat → V → V)
    (hstep : ∀ s ii i, view (step s ii) i = if i = idx ii then F ii (view s i) else view s i) (n : Nat)
    (hinj : ∀ a < n, ∀ b < n, idx a = idx b → a = b) (s : S) (i : Nat) :
    (∀ ii < n, idx ii = i → view ((List.range n).foldl step s) i = F ii (view s i))
    ∧ ((∀ ii < n, idx ii ≠ i) → view ((List.range n).foldl step s) i = view s i) := by
  induction n with
  | zero => simp
  | succ n ih =>
    obtain ⟨h1, h2⟩ := ih fun a ha b hb => hinj a (by omega) b (by omega)
    rw [List.range_succ, List.foldl_append, List.foldl_cons, List.foldl_nil]
    refine ⟨fun ii hii e => ?_, fun h => ?_⟩
    · rw [hstep]
      rcases Nat.lt_succ_iff_lt_or_eq.1 hii with h | h
      · rw [if_neg, h1 ii h e]
        intro he
        have := hinj ii (by omega) n (by omega) (e.trans he)
        omega
      · subst h
        rw [if_pos e.symm, h2]
        intro k hk he
        have := hinj k (by omega) ii (by omega) (he.trans e.symm)
        omega
    · rw [hstep, if_neg (fun he => h n (by omega) he.symm), h2 fun ii hii => h ii (by omega)]

variable {K : Type*} [Field K] [LinearOrder K]

theorem idxs_inv {q : DQp K} (hq : WF q) (ii : Nat) (h : ii < q.ns) :
    idxsOf q ii < q.nb + q.ng ∧ SS q (idxsOf q ii) ∧ slackOf q (idxsOf q ii) = ii := by
  obtain ⟨i, hi, e⟩ := hq.used ii h
  have hs : SS q i := by unfold SS; omega
  have hsl : slackOf q i = ii := by unfold slackOf; omega
  have := idxsOf_eq hq i hi hs
  rw [hsl] at this
  rw [this]
  exact ⟨hi, hs, hsl⟩

theorem idxs_inj {q : DQp K} (hq : WF q) : ∀ a < q.ns, ∀ b < q.ns, idxsOf q a = idxsOf q b → a = b := by
  intro a ha b hb h
  rw [← (idxs_inv hq a ha).2.2, ← (idxs_inv hq b hb).2.2, h]

/-! ### Soft constraints -/

/-- the six arrays at one index -/
def Soft.view (s : Soft K) (i : Nat) : K × K × K × K × K × K := (s.lo i, s.up i, s.dls i, s.dus i, s.rhol i, s.rhou i)

/-- the loop over soft constraints at index `idxs[ii]` -/
def softF (e : Ext K) (q : DQp K) (ii : Nat) (v : K × K × K × K × K × K) : K × K × K × K × K × K :=
  let Zl := zHess e q ii
  let Zu := zHess e q (q.ns + ii)
  let zl := q.gz (q.nv + ii)
  let zu := q.gz (q.nv + q.ns + ii)
  let dl := max 0 (zl + Zl * q.d (2 * q.nb + 2 * q.ng + ii))
  let du := max 0 (zu + Zu * q.d (2 * q.nb + 2 * q.ng + q.ns + ii))
  (v.1 + zl / Zl - dl / Zl, v.2.1 - zu / Zu + du / Zu, dl, du, 1 / Zl, 1 / Zu)

theorem softStep_view (e : Ext K) (q : DQp K) (s : Soft K) (ii i : Nat) :
    (softStep e q s ii).view i = if i = idxsOf q ii then softF e q ii (s.view i) else s.view i := by
  by_cases h : i = idxsOf q ii
  · subst h; simp [Soft.view, softStep, softF]
  · simp [Soft.view, softStep, Function.update_of_ne h, h]

/-- the second loop -/
def scaleStep (sc : Nat → K) (q : DQp K) (s : Soft K) (ii : Nat) : Soft K :=
  let i := idxsOf q ii
  { s with dls := Function.update s.dls i (s.dls i / sc i)
           dus := Function.update s.dus i (s.dus i / sc i)
           rhol := Function.update s.rhol i (s.rhol i * (sc i * sc i))
           rhou := Function.update s.rhou i (s.rhou i * (sc i * sc i)) }

/-- its effect at one index -/
def scaleF (sc : Nat → K) (q : DQp K) (ii : Nat) (v : K × K × K × K × K × K) : K × K × K × K × K × K :=
  (v.1, v.2.1, v.2.2.1 / sc (idxsOf q ii), v.2.2.2.1 / sc (idxsOf q ii),
    v.2.2.2.2.1 * (sc (idxsOf q ii) * sc (idxsOf q ii)), v.2.2.2.2.2 * (sc (idxsOf q ii) * sc (idxsOf q ii)))

theorem scaleStep_view (sc : Nat → K) (q : DQp K) (s : Soft K) (ii i : Nat) :
    (scaleStep sc q s ii).view i = if i = idxsOf q ii then scaleF sc q ii (s.view i) else s.view i := by
  by_cases h : i = idxsOf q ii
  · subst h; simp [Soft.view, scaleStep, scaleF]
  · simp [Soft.view, scaleStep, Function.update_of_ne h, h]

/-- slack arrays after both loops -/
def soft2 (e : Ext K) (q : DQp K) (old : Soft K) (sc : Nat → K) : Soft K :=
  (List.range q.ns).foldl (scaleStep sc q) (softOf e q old)

theorem softOf_view (e : Ext K) {q : DQp K} (hq : WF q) (old : Soft K) (i : Nat) (hi : i < q.nb + q.ng) :
    ((softOf e q old).view i).1 = (if DenseQp.Soft q i then
      (softF e q (slackOf q i) (blowerOf e q i, bupperOf e q i, 0, 0, 0, 0)).1 else blowerOf e q i)
    ∧ ((softOf e q old).view i).2.1 = (if DenseQp.Soft q i then
      (softF e q (slackOf q i) (blowerOf e q i, bupperOf e q i, 0, 0, 0, 0)).2.1 else bupperOf e q i)
    ∧ (DenseQp.Soft q i → ((softOf e q old).view i).2.2
      = (softF e q (slackOf q i) (blowerOf e q i, bupperOf e q i, 0, 0, 0, 0)).2.2) := by
  obtain ⟨h1, h2⟩ := fold_local Soft.view (softStep e q) (idxsOf q) (softF e q) (softStep_view e q) q.ns (idxs_inj hq)
    { old with lo := blowerOf e q, up := bupperOf e q } i
  unfold softOf
  by_cases hs : DenseQp.Soft q i
  · have hk := h1 (slackOf q i) (hq.slack_lt i hi hs.2) (idxsOf_eq hq i hi hs.2)
    rw [hk, if_pos hs, if_pos hs]
    exact ⟨rfl, rfl, fun _ => rfl⟩
  · rw [if_neg hs, if_neg hs, h2]
    · exact ⟨rfl, rfl, fun h => absurd h hs⟩
    · intro ii hii he
      obtain ⟨a, b, c⟩ := idxs_inv hq ii hii
      rw [he] at b
      exact hs ⟨by omega, b⟩

/-- entries of the equalities -/
theorem softOf_eq (e : Ext K) {q : DQp K} (hq : WF q) (old : Soft K) (i : Nat) (hi : q.nb + q.ng ≤ i) :
    (softOf e q old).up i = bupperOf e q i := by
  obtain ⟨h1, h2⟩ := fold_local Soft.view (softStep e q) (idxsOf q) (softF e q) (softStep_view e q) q.ns (idxs_inj hq)
    { old with lo := blowerOf e q, up := bupperOf e q } i
  have := h2 fun ii hii he => by
    obtain ⟨a, b, c⟩ := idxs_inv hq ii hii
    omega
  exact congrArg (fun v => v.2.1) this

theorem soft2_lo (e : Ext K) {q : DQp K} (hq : WF q) (old : Soft K) (sc : Nat → K) (i : Nat) :
    (soft2 e q old sc).lo i = (softOf e q old).lo i ∧ (soft2 e q old sc).up i = (softOf e q old).up i := by
  obtain ⟨h1, h2⟩ := fold_local Soft.view (scaleStep sc q) (idxsOf q) (scaleF sc q) (scaleStep_view sc q) q.ns (idxs_inj hq)
    (softOf e q old) i
  by_cases h : ∃ ii < q.ns, idxsOf q ii = i
  · obtain ⟨ii, hii, he⟩ := h
    have := h1 ii hii he
    exact ⟨congrArg (fun v => v.1) this, congrArg (fun v => v.2.1) this⟩
  · push Not at h
    have := h2 h
    exact ⟨congrArg (fun v => v.1) this, congrArg (fun v => v.2.1) this⟩

theorem soft2_d (e : Ext K) {q : DQp K} (hq : WF q) (old : Soft K) (sc : Nat → K) (i : Nat) (hi : i < q.nb + q.ng)
    (hs : DenseQp.Soft q i) :
    let s := soft2 e q old sc
    let v := softF e q (slackOf q i) (blowerOf e q i, bupperOf e q i, 0, 0, 0, 0)
    s.dls i = v.2.2.1 / sc i ∧ s.dus i = v.2.2.2.1 / sc i ∧ s.rhol i = v.2.2.2.2.1 * (sc i * sc i)
      ∧ s.rhou i = v.2.2.2.2.2 * (sc i * sc i) := by
  intro s v
  obtain ⟨h1, h2⟩ := fold_local Soft.view (scaleStep sc q) (idxsOf q) (scaleF sc q) (scaleStep_view sc q) q.ns (idxs_inj hq)
    (softOf e q old) i
  have hk := h1 (slackOf q i) (hq.slack_lt i hi hs.2) (idxsOf_eq hq i hi hs.2)
  have hv := (softOf_view e hq old i hi).2.2 hs
  rw [scaleF, idxsOf_eq hq i hi hs.2, hv] at hk
  exact ⟨congrArg (fun v => v.2.2.1) hk, congrArg (fun v => v.2.2.2.1) hk, congrArg (fun v => v.2.2.2.2.1) hk,
    congrArg (fun v => v.2.2.2.2.2) hk⟩

theorem kindOf_eq {q : DQp K} (hq : WF q) (i : Nat) :
    (i < q.nb + q.ng → DenseQp.Soft q i → kindOf q i = .soft)
    ∧ (i < q.nb + q.ng → ¬ DenseQp.Soft q i → kindOf q i = .hard)
    ∧ (q.nb + q.ng ≤ i → kindOf q i = .eq) := by
  obtain ⟨h1, h2⟩ := fold_local (fun (a : Nat → Kind) i => a i) (fun a ii => Function.update a (idxsOf q ii) .soft)
    (idxsOf q) (fun _ _ => .soft) (fun s ii i => by rw [Function.update_apply]) q.ns (idxs_inj hq)
    (fun i => if q.nb + q.ng ≤ i then .eq else .hard) i
  refine ⟨fun hi hs => h1 _ (hq.slack_lt i hi hs.2) (idxsOf_eq hq i hi hs.2), fun hi hs => ?_, fun hi => ?_⟩
  · refine (h2 fun ii hii he => ?_).trans (if_neg (by omega))
    obtain ⟨a, b, c⟩ := idxs_inv hq ii hii
    rw [he] at b
    exact hs ⟨by omega, b⟩
  · refine (h2 fun ii hii he => ?_).trans (if_pos hi)
    obtain ⟨a, b, c⟩ := idxs_inv hq ii hii
    omega

/-! ### What `update` returns -/

/-- the LDP in terms of the memory after the call -/
theorem update_some (e : Ext K) (hot : Bool) (q : DQp K) (old : Soft K) (m m' : Mem K) (v : Nat → K) (s : Soft K)
    (l : Ldp K) (h : update e hot q old m = (m', some (v, s, l))) :
    v = m'.chol.solveN q.gz ∧ s = soft2 e q old m'.sc ∧ l.n = q.nv ∧ l.m = mOf q ∧ l.M = m'.Mw ∧ l.kind = m'.kind
    ∧ (∀ i, l.dlo i = s.lo i * m'.sc i + ∑ j ∈ range q.nv, m'.Mf j i * v j)
    ∧ (∀ i, l.dup i = s.up i * m'.sc i + ∑ j ∈ range q.nv, m'.Mf j i * v j)
    ∧ l.dls = s.dls ∧ l.dus = s.dus ∧ l.rhol = s.rhol ∧ l.rhou = s.rhou ∧ m'.init = true := by
  unfold update at h
  simp only at h
  by_cases hu : (!hot || !m.init) = true
  all_goals
    simp only [hu, if_true, if_false, Bool.false_eq_true] at h
    split at h
    · simp at h
    · first
        | (split at h
           · simp at h
           · simp only [Prod.mk.injEq, Option.some.injEq] at h
             obtain ⟨rfl, rfl, rfl, rfl⟩ := h
             exact ⟨rfl, rfl, rfl, rfl, rfl, rfl, fun _ => rfl, fun _ => rfl, rfl, rfl, rfl, rfl, rfl⟩)
        | (simp only [Prod.mk.injEq, Option.some.injEq] at h
           obtain ⟨rfl, rfl, rfl, rfl⟩ := h
           exact ⟨rfl, rfl, rfl, rfl, rfl, rfl, fun _ => rfl, fun _ => rfl, rfl, rfl, rfl, rfl, rfl⟩)

/-- the matrix part of the memory belongs to the matrices of `q` -/
structure Built (q : DQp K) (m : Mem K) : Prop where
  chol : CholFor q.nv (DenseQp.fillUpper q.nv q.H) m.chol
  Mf : ∀ i < mOf q, ∀ j < q.nv, m.Mf j i = m.sc i * m.chol.solveN (colOf q i) j
  Mw : ∀ i < mOf q, ∀ j < q.nv, m.Mw j i = m.sc i * m.chol.solveN (colOf q i) j
  sc : ∀ i < mOf q, 0 < m.sc i
  kind : ∀ i < mOf q, m.kind i = kindOf q i

theorem norm_fold (e : Ext K) (nv : Nat) (lo up : Nat → K) (s : Norm K) (hb : s.bad = false) (n : Nat)
    (hl : ∀ i < n, e.tol ≤ ∑ j ∈ range nv, s.Mf j i * s.Mf j i) :
    let r := (List.range n).foldl (normStep e nv lo up) s
    r.bad = false ∧ r.kind = s.kind
    ∧ (∀ i < n, r.sc i = e.rsqrt (∑ j ∈ range nv, s.Mf j i * s.Mf j i) ∧ ∀ j < nv, r.Mf j i = r.sc i * s.Mf j i)
    ∧ ∀ i, n ≤ i → ∀ j, r.Mf j i = s.Mf j i := by
  induction n with
  | zero => simp [hb]
  | succ n ih =>
    obtain ⟨h1, h2, h3, h4⟩ := ih fun i hi => hl i (by omega)
    intro r
    have hr : r = normStep e nv lo up ((List.range n).foldl (normStep e nv lo up) s) n := by
      simp only [r, List.range_succ, List.foldl_append, List.foldl_cons, List.foldl_nil]
    generalize hp : (List.range n).foldl (normStep e nv lo up) s = p at h1 h2 h3 h4 hr
    have hn : ∑ j ∈ range nv, p.Mf j n * p.Mf j n = ∑ j ∈ range nv, s.Mf j n * s.Mf j n :=
      sum_congr rfl fun j _ => by rw [h4 n le_rfl j]
    have hstep : r = { p with sc := Function.update p.sc n (e.rsqrt (∑ j ∈ range nv, s.Mf j n * s.Mf j n))
                              Mf := fun j k => if k = n ∧ j < nv then
                                e.rsqrt (∑ j ∈ range nv, s.Mf j n * s.Mf j n) * p.Mf j k else p.Mf j k } := by
      rw [hr]
      unfold normStep
      rw [if_neg (by simp [h1])]
      simp only [hn]
      rw [if_neg (not_lt.2 (hl n (by omega)))]
    rw [hstep]
    refine ⟨h1, h2, fun i hi => ?_, fun i hi j => ?_⟩
    · rcases Nat.lt_succ_iff_lt_or_eq.1 hi with h | h
      · have hne : i ≠ n := by omega
        simp only [Function.update_of_ne hne, hne, false_and, if_false]
        exact h3 i h
      · subst h
        simp only [Function.update_self, true_and]
        refine fun j hj => ?_
        rw [if_pos hj, h4 i le_rfl j]
    · simp only
      rw [if_neg (by omega), h4 i (by omega) j]

/-- after a call that builds the matrices -/
theorem built_fresh (e : Ext K) (hot : Bool) (q : DQp K) (old : Soft K) (m m' : Mem K)
    (r : (Nat → K) × Soft K × Ldp K) (hupd : hot = false ∨ m.init = false)
    (hch : CholFor q.nv (DenseQp.fillUpper q.nv q.H) (e.potrf (DenseQp.fillUpper q.nv q.H)))
    (hlong : LongRows e q) (hr : ∀ x, e.tol ≤ x → 0 < e.rsqrt x) (h : update e hot q old m = (m', some r)) :
    Built q m' := by
  have hu : (!hot || !m.init) = true := by rcases hupd with h | h <;> simp [h]
  unfold update at h
  simp only [hu, if_true] at h
  split at h
  · simp at h
  · split at h
    · simp at h
    · simp only [Prod.mk.injEq, Option.some.injEq] at h
      obtain ⟨h, -⟩ := h
      obtain ⟨ch, hch'⟩ : ∃ c, c = e.potrf (DenseQp.fillUpper q.nv q.H) := ⟨_, rfl⟩
      have hl : ∀ i < mOf q, e.tol ≤ ∑ j ∈ range q.nv,
          (if j < q.nv ∧ i < mOf q then ch.solveN (colOf q i) j else m.Mf j i)
            * (if j < q.nv ∧ i < mOf q then ch.solveN (colOf q i) j else m.Mf j i) := by
        intro i hi
        refine (hlong i hi).trans (le_of_eq ?_)
        rw [← hch']
        exact sum_congr rfl fun j hj => by rw [if_pos ⟨mem_range.1 hj, hi⟩]
      have hf := norm_fold e q.nv (softOf e q old).lo (softOf e q old).up
        ⟨fun j i => if j < q.nv ∧ i < mOf q then ch.solveN (colOf q i) j else m.Mf j i, m.sc, kindOf q, false⟩ rfl (mOf q) hl
      simp only at hf
      rw [← hch'] at h
      obtain ⟨a1, a2, a3, a4⟩ := hf
      have hM : ∀ i < mOf q, ∀ j < q.nv, m'.Mf j i = m'.sc i * ch.solveN (colOf q i) j := by
        intro i hi j hj
        rw [← h]
        simp only
        rw [(a3 i hi).2 j hj, if_pos ⟨hj, hi⟩]
      have hc : m'.chol = ch := by rw [← h]
      refine ⟨by rw [hc, hch']; exact hch, fun i hi j hj => by rw [hc]; exact hM i hi j hj, fun i hi j hj => ?_,
        fun i hi => ?_, fun i hi => ?_⟩
      · rw [hc, ← hM i hi j hj, ← h]
      · rw [← h]
        simp only
        rw [(a3 i hi).1]
        exact hr _ (hl i hi)
      · rw [← h]
        simp only
        rw [a2]

/-- a hot start keeps the matrix part -/
theorem built_hot (e : Ext K) (q q' : DQp K) (old : Soft K) (m m' : Mem K) (r : Option ((Nat → K) × Soft K × Ldp K))
    (hi : m.init = true) (hb : Built q' m) (h : update e true q old m = (m', r)) : Built q' m' ∧ m'.init = true := by
  unfold update at h
  simp only [hi, Bool.not_true, Bool.or_self, Bool.false_eq_true, if_false] at h
  split at h
  · simp only [Prod.mk.injEq] at h
    rw [← h.1]
    exact ⟨hb, hi⟩
  · simp only [Prod.mk.injEq] at h
    rw [← h.1]
    exact ⟨⟨hb.chol, hb.Mf, hb.Mw, hb.sc, hb.kind⟩, rfl⟩

/-! ### Output -/

theorem mult_cons (p : Nat × K) (ws : List (Nat × K)) (i : Nat) :
    mult (p :: ws) i = (if p.1 = i then p.2 else 0) + mult ws i := by simp [mult]

theorem mult_not_mem (ws : List (Nat × K)) (i : Nat) (h : i ∉ ws.map Prod.fst) : mult ws i = 0 := by
  induction ws with
  | nil => simp [mult]
  | cons p ws ih =>
    simp only [List.map_cons, List.mem_cons, not_or] at h
    rw [mult_cons, ih h.2, if_neg (fun e => h.1 e.symm), add_zero]

theorem sum_ws (m : Nat) (f : Nat → K) (ws : List (Nat × K)) (h : ∀ p ∈ ws, p.1 < m) :
    (ws.map fun p => f p.1 * p.2).sum = ∑ i ∈ range m, f i * mult ws i := by
  induction ws with
  | nil => simp [mult]
  | cons p ws ih =>
    rw [List.map_cons, List.sum_cons, ih fun q hq => h q (List.mem_cons_of_mem _ hq)]
    simp only [mult_cons, mul_add, sum_add_distrib]
    congr 1
    rw [sum_eq_single p.1]
    · simp
    · intro b _ hb; simp [hb.symm]
    · intro hb; exact absurd (mem_range.2 (h p List.mem_cons_self)) hb

theorem lam_fold (m : Mem K) (q : DQp K) (ws : List (Nat × K)) (hnd : (ws.map Prod.fst).Nodup)
    (s : (Nat → K) × (Nat → K)) :
    let r := ws.foldl (lamStep m q) s
    let n := q.nb + q.ng
    (∀ i < n, r.1 (n + i) = (if i ∈ ws.map Prod.fst ∧ 0 ≤ mult ws i * m.sc i then mult ws i * m.sc i else s.1 (n + i))
      ∧ r.1 i = if i ∈ ws.map Prod.fst ∧ mult ws i * m.sc i < 0 then -(mult ws i * m.sc i) else s.1 i)
    ∧ (∀ j, 2 * n ≤ j → r.1 j = s.1 j)
    ∧ ∀ k, r.2 k = if n + k ∈ ws.map Prod.fst then mult ws (n + k) * m.sc (n + k) else s.2 k := by
  induction ws generalizing s with
  | nil => simp
  | cons p ws ih =>
    intro r n
    simp only [List.map_cons, List.nodup_cons] at hnd
    obtain ⟨a1, a2, a3⟩ := ih hnd.2 (lamStep m q s p)
    have hr : r = ws.foldl (lamStep m q) (lamStep m q s p) := rfl
    rw [← hr] at a1 a2 a3
    have hm : ∀ i, i ≠ p.1 → mult (p :: ws) i = mult ws i := by
      intro i hi; rw [mult_cons, if_neg (Ne.symm hi), zero_add]
    have hp : mult (p :: ws) p.1 = p.2 := by
      rw [mult_cons, if_pos rfl, mult_not_mem ws _ hnd.1, add_zero]
    have hmem : ∀ i, i ≠ p.1 → (i ∈ (p :: ws).map Prod.fst ↔ i ∈ ws.map Prod.fst) := by
      intro i hi; simp [hi]
    have hstep1 : ∀ j, (p.1 < n → j ≠ p.1 ∧ j ≠ n + p.1) → (lamStep m q s p).1 j = s.1 j := by
      intro j hj
      unfold lamStep
      simp only
      by_cases h1 : p.1 < q.nb
      · have := hj (by omega)
        rw [if_pos h1]
        split
        · exact Function.update_of_ne this.2 _ _
        · exact Function.update_of_ne this.1 _ _
      · rw [if_neg h1]
        by_cases h2 : p.1 < q.nb + q.ng
        · have := hj h2
          rw [if_pos h2]
          split
          · exact Function.update_of_ne this.2 _ _
          · exact Function.update_of_ne this.1 _ _
        · rw [if_neg h2]
    have hstep2 : p.1 < n → lamStep m q s p = if 0 ≤ p.2 * m.sc p.1 then
        (Function.update s.1 (n + p.1) (p.2 * m.sc p.1), s.2) else (Function.update s.1 p.1 (-(p.2 * m.sc p.1)), s.2) := by
      intro h
      unfold lamStep
      by_cases h1 : p.1 < q.nb
      · simp only [if_pos h1]; rfl
      · simp only [if_neg h1]; rw [if_pos h]
    refine ⟨fun i hi => ?_, fun j hj => ?_, fun k => ?_⟩
    · by_cases hip : i = p.1
      · subst hip
        obtain ⟨b1, b2⟩ := a1 p.1 hi
        have hn : ¬ (p.1 ∈ ws.map Prod.fst) := hnd.1
        rw [if_neg (fun h => hn h.1)] at b1 b2
        rw [b1, b2, hp, hstep2 hi]
        by_cases h0 : 0 ≤ p.2 * m.sc p.1
        · rw [if_pos h0, if_pos ⟨by simp, h0⟩, if_neg (fun h => absurd h.2 (not_lt.2 h0))]
          exact ⟨Function.update_self .., Function.update_of_ne (by omega) _ _⟩
        · rw [if_neg h0, if_neg (fun h => h0 h.2), if_pos ⟨by simp, not_le.1 h0⟩]
          exact ⟨Function.update_of_ne (by omega) _ _, Function.update_self ..⟩
      · obtain ⟨b1, b2⟩ := a1 i hi
        rw [b1, b2, hm i hip]
        simp only [hmem i hip]
        rw [hstep1 _ (fun h => by omega), hstep1 i (fun h => by omega)]
        exact ⟨rfl, rfl⟩
    · rw [a2 j hj, hstep1 j (fun h => by omega)]
    · rw [a3 k]
      by_cases hk : n + k = p.1
      · rw [hk, if_neg hnd.1, if_pos (by simp), hp]
        unfold lamStep
        simp only
        rw [if_neg (by omega), if_neg (by omega)]
        have : p.1 - q.nb - q.ng = k := by omega
        rw [this]
        exact Function.update_self ..
      · rw [hm _ hk]
        simp only [hmem _ hk]
        congr 1
        unfold lamStep
        simp only
        split
        · split <;> rfl
        · split
          · split <;> rfl
          · exact Function.update_of_ne (by omega) _ _

/-- value of a constraint from the variables without slacks -/
theorem row_congr (q : DQp K) (hq : WF q) (v v' : Nat → K) (h : ∀ j < q.nv, v j = v' j) (i : Nat) (_hi : i < q.nb + q.ng) :
    row q v i = row q v' i := by
  unfold row
  split
  · next h1 => exact h _ (hq.idxb i h1)
  · exact sum_congr rfl fun j hj => by rw [h j (mem_range.1 hj)]

theorem slack_fold (e : Ext K) (m : Mem K) (q : DQp K) (hq : WF q) (b : Soft K) (v0 lam0 : Nat → K) (n : Nat)
    (hn : n ≤ q.ns) :
    let r := (List.range n).foldl (slackStep e m q) (b, v0, lam0)
    let N := q.nb + q.ng
    (∀ j < q.nv, r.2.1 j = v0 j) ∧ (∀ j < 2 * N, r.2.2 j = lam0 j)
    ∧ r.1.dls = b.dls ∧ r.1.dus = b.dus
    ∧ (∀ ii < q.ns, n ≤ ii → r.1.lo (idxsOf q ii) = b.lo (idxsOf q ii) ∧ r.1.up (idxsOf q ii) = b.up (idxsOf q ii))
    ∧ ∀ ii < n,
      let i := idxsOf q ii
      let sl := max (q.d (2 * q.nb + 2 * q.ng + ii))
        (b.lo i - (q.gz (q.nv + ii) - b.dls i * m.sc i) / zHess e q ii - row q v0 i)
      let su := max (q.d (2 * q.nb + 2 * q.ng + q.ns + ii))
        (row q v0 i - (b.up i + (q.gz (q.nv + q.ns + ii) - b.dus i * m.sc i) / zHess e q (q.ns + ii)))
      r.2.1 (q.nv + ii) = sl ∧ r.2.1 (q.nv + q.ns + ii) = su
      ∧ r.2.2 (2 * N + ii) = zHess e q ii * sl + q.gz (q.nv + ii) - lam0 i
      ∧ r.2.2 (2 * N + q.ns + ii) = zHess e q (q.ns + ii) * su + q.gz (q.nv + q.ns + ii) - lam0 (N + i) := by
  induction n with
  | zero => simp
  | succ n ih =>
    obtain ⟨a1, a2, a3, a4, a5, a6⟩ := ih (by omega)
    intro r N
    have hr : r = slackStep e m q ((List.range n).foldl (slackStep e m q) (b, v0, lam0)) n := by
      simp only [r, List.range_succ, List.foldl_append, List.foldl_cons, List.foldl_nil]
    generalize hp : (List.range n).foldl (slackStep e m q) (b, v0, lam0) = p at a1 a2 a3 a4 a5 a6 hr
    have hidx := idxs_inv hq n (by omega)
    have hrow : (if idxsOf q n < q.nb then p.2.1 (q.idxb (idxsOf q n))
        else ∑ j ∈ range q.nv, q.Ct j (idxsOf q n - q.nb) * p.2.1 j) = row q v0 (idxsOf q n) :=
      row_congr q hq p.2.1 v0 a1 _ hidx.1
    have hl1 : p.2.2 (idxsOf q n) = lam0 (idxsOf q n) := a2 _ (by omega)
    have hl2 : p.2.2 (idxsOf q n + q.nb + q.ng) = lam0 (N + idxsOf q n) := by
      rw [a2 _ (by omega)]; congr 1; omega
    obtain ⟨hb1, hb2⟩ := a5 n (by omega) le_rfl
    have hfst : r.1.dls = p.1.dls ∧ r.1.dus = p.1.dus := by rw [hr]; exact ⟨rfl, rfl⟩
    have hloc : ∀ i, i ≠ idxsOf q n → r.1.lo i = p.1.lo i ∧ r.1.up i = p.1.up i := by
      intro i hi; rw [hr]
      exact ⟨Function.update_of_ne hi _ _, Function.update_of_ne hi _ _⟩
    have hv : ∀ j, j ≠ q.nv + n → j ≠ q.nv + q.ns + n → r.2.1 j = p.2.1 j := by
      intro j h1 h2; rw [hr]
      simp only [slackStep]
      rw [Function.update_of_ne h2, Function.update_of_ne h1]
    have hl : ∀ j, j ≠ 2 * N + n → j ≠ 2 * N + q.ns + n → r.2.2 j = p.2.2 j := by
      intro j h1 h2; rw [hr]
      simp only [slackStep]
      rw [Function.update_of_ne h2, Function.update_of_ne h1]
    refine ⟨fun j hj => by rw [hv j (by omega) (by omega), a1 j hj],
      fun j hj => by rw [hl j (by omega) (by omega), a2 j hj],
      hfst.1.trans a3, hfst.2.trans a4, fun ii h1 h2 => ?_, fun ii hii => ?_⟩
    · have hne : idxsOf q ii ≠ idxsOf q n := by
        intro h
        have := idxs_inj hq ii h1 n (by omega) h
        omega
      rw [(hloc _ hne).1, (hloc _ hne).2]
      exact a5 ii h1 (by omega)
    · rcases Nat.lt_succ_iff_lt_or_eq.1 hii with h | h
      · obtain ⟨c1, c2, c3, c4⟩ := a6 ii h
        refine ⟨?_, ?_, ?_, ?_⟩
        · rw [hv _ (by omega) (by omega), c1]
        · rw [hv _ (by omega) (by omega), c2]
        · rw [hl _ (by omega) (by omega), c3]
        · rw [hl _ (by omega) (by omega), c4]
      · subst h
        rw [hr]
        simp only [slackStep]
        rw [hrow, hb1, hb2, a3, a4, hl1]
        refine ⟨?_, ?_, ?_, ?_⟩
        · rw [Function.update_of_ne (by omega), Function.update_self]
        · rw [Function.update_self]
        · rw [Function.update_of_ne (by omega), Function.update_self]
        · rw [Function.update_self, Function.update_of_ne (by omega), hl2]

end Acados.Daqp
