import Verif.Lemmas.QpOpts
import Mathlib.Algebra.Order.Ring.Rat
import Mathlib.Algebra.Field.Rat
import Mathlib.Tactic.NormNum

/-!
# C100: options of the QP solver after any history of option calls and solves
-/

namespace Acados.QpOpts

open Acados.Param (Four TolOpts tolJoint tolScaling)
open Spec (last after values Fixed both feasTols allTols modeName beforeSolve afterInt lastInt IsMode)

section
variable {K : Type} [Field K] [LinearOrder K] {E : Ext} {α : Type}

omit [Field K] [LinearOrder K] in
theorem regUpd_hit {op : α → K → α} {gs rs : List Name} {r a : α} {g : Name} {v : Val K} {x : K} (hr : g ∉ rs)
    (hg : g ∈ gs) (hv : v = .dbl x) : regUpd op gs rs r g v a = op a x := by
  subst hv
  unfold regUpd
  rw [if_neg hr, if_pos hg]

omit [Field K] [LinearOrder K] in
theorem regUpd_miss {op : α → K → α} {gs rs : List Name} {r a : α} {g : Name} {v : Val K} (hr : g ∉ rs)
    (hg : g ∉ gs) : regUpd op gs rs r g v a = a := by
  unfold regUpd
  rw [if_neg hr, if_neg hg]

omit [Field K] [LinearOrder K] in
theorem regUpd_reset {op : α → K → α} {gs rs : List Name} {r a : α} {g : Name} {v : Val K} (hr : g ∈ rs) :
    regUpd op gs rs r g v a = r := by
  unfold regUpd
  rw [if_pos hr]

/-- a register that keeps the last value -/
abbrev lastOp : K → K → K := fun _ x => x

omit [Field K] [LinearOrder K] in
theorem regHit {gs rs : List Name} {r a : K} {g : Name} {v : Val K} {x : K} (hr : g ∉ rs)
    (hg : g ∈ gs) (hv : v = .dbl x) : x = regUpd lastOp gs rs r g v a :=
  (regUpd_hit (op := lastOp) (r := r) (a := a) hr hg hv).symm

omit [Field K] [LinearOrder K] in
theorem regMiss {op : α → K → α} {gs rs : List Name} {r a : α} {g : Name} {v : Val K} (hr : g ∉ rs)
    (hg : g ∉ gs) : a = regUpd op gs rs r g v a := (regUpd_miss hr hg).symm

omit [Field K] [LinearOrder K] in
theorem regReset {op : α → K → α} {gs rs : List Name} {r a : α} {g : Name} {v : Val K} (hr : g ∈ rs) :
    r = regUpd op gs rs r g v a := (regUpd_reset hr).symm

/-- update of a tolerance of HPIPM -/
abbrev hpUpd (t : Name) (r : K) : Name → Val K → K → K := regUpd lastOp [t] ["hpipm_mode".toList] r

omit [LinearOrder K] in
theorem hpipmSet_regs {g : Name} {v : Val K} {o o' : Hpipm K} (h : hpipmSet E g v o = .ok o') :
    o'.resG = hpUpd "tol_stat".toList (1 / 10 ^ 6) g v o.resG ∧
    o'.resB = hpUpd "tol_eq".toList (1 / 10 ^ 8) g v o.resB ∧
    o'.resD = hpUpd "tol_ineq".toList (1 / 10 ^ 8) g v o.resD ∧
    o'.resM = hpUpd "tol_comp".toList (1 / 10 ^ 8) g v o.resM := by
  unfold hpipmSet at h
  rcases ite_cases h with ⟨h1, h⟩ | ⟨h1, h⟩
  · obtain ⟨x, hx, h⟩ := ok_bind h
    rcases ite_cases h with ⟨-, h⟩ | ⟨-, h⟩
    · injection h with h; subst h; subst h1
      exact ⟨regReset (by decide), regReset (by decide), regReset (by decide),
        regReset (by decide)⟩
    · cases h
  rcases ite_cases h with ⟨h2, h⟩ | ⟨h2, h⟩
  · obtain ⟨x, hx, h⟩ := ok_bind h; injection h with h; subst h; subst h2
    exact ⟨regMiss (by decide) (by decide), regMiss (by decide) (by decide),
      regMiss (by decide) (by decide), regMiss (by decide) (by decide)⟩
  rcases ite_cases h with ⟨h3, h⟩ | ⟨h3, h⟩
  · obtain ⟨x, hx, h⟩ := ok_bind h; injection h with h; subst h; subst h3
    exact ⟨regMiss (by decide) (by decide), regMiss (by decide) (by decide),
      regMiss (by decide) (by decide), regMiss (by decide) (by decide)⟩
  rcases ite_cases h with ⟨h4, h⟩ | ⟨h4, h⟩
  · obtain ⟨x, hx, h⟩ := ok_bind h; injection h with h; subst h; subst h4
    exact ⟨regHit (by decide) (by decide) (asDbl_ok hx), regMiss (by decide) (by decide),
      regMiss (by decide) (by decide), regMiss (by decide) (by decide)⟩
  rcases ite_cases h with ⟨h5, h⟩ | ⟨h5, h⟩
  · obtain ⟨x, hx, h⟩ := ok_bind h; injection h with h; subst h; subst h5
    exact ⟨regMiss (by decide) (by decide), regHit (by decide) (by decide) (asDbl_ok hx),
      regMiss (by decide) (by decide), regMiss (by decide) (by decide)⟩
  rcases ite_cases h with ⟨h6, h⟩ | ⟨h6, h⟩
  · obtain ⟨x, hx, h⟩ := ok_bind h; injection h with h; subst h; subst h6
    exact ⟨regMiss (by decide) (by decide), regMiss (by decide) (by decide),
      regHit (by decide) (by decide) (asDbl_ok hx), regMiss (by decide) (by decide)⟩
  rcases ite_cases h with ⟨h7, h⟩ | ⟨h7, h⟩
  · obtain ⟨x, hx, h⟩ := ok_bind h; injection h with h; subst h; subst h7
    exact ⟨regMiss (by decide) (by decide), regMiss (by decide) (by decide),
      regMiss (by decide) (by decide), regHit (by decide) (by decide) (asDbl_ok hx)⟩
  rcases ite_cases h with ⟨h8, h⟩ | ⟨h8, h⟩
  · obtain ⟨x, hx, h⟩ := ok_bind h; injection h with h; subst h; subst h8
    exact ⟨regMiss (by decide) (by decide), regMiss (by decide) (by decide),
      regMiss (by decide) (by decide), regMiss (by decide) (by decide)⟩
  rcases ite_cases h with ⟨h9, h⟩ | ⟨h9, h⟩
  · obtain ⟨x, hx, h⟩ := ok_bind h; injection h with h; subst h; subst h9
    exact ⟨regMiss (by decide) (by decide), regMiss (by decide) (by decide),
      regMiss (by decide) (by decide), regMiss (by decide) (by decide)⟩
  rcases ite_cases h with ⟨-, h⟩ | ⟨-, h⟩
  · injection h with h; subst h
    have hm : ∀ {n : Name}, ¬ g = n → g ∉ [n] := fun hn hg => hn (List.mem_singleton.mp hg)
    exact ⟨regMiss (hm h1) (hm h4), regMiss (hm h1) (hm h5),
      regMiss (hm h1) (hm h6), regMiss (hm h1) (hm h7)⟩
  · cases h

/-- a component of the options of HPIPM -/
def obsH (p : Hpipm K → α) : Qp K → Option α
  | .hpipm o => some (p o)
  | _ => none

theorem qpSet_kind {g : Name} {v : Val K} {q q' : Qp K} (h : qpSet E g v q = .ok q') :
    (∃ o o', q = .hpipm o ∧ q' = .hpipm o' ∧ hpipmSet E g v o = .ok o') ∨
    (∃ o o', q = .osqp o ∧ q' = .osqp o' ∧ osqpSet g v o = .ok o') ∨
    (∃ o o', q = .clarabel o ∧ q' = .clarabel o' ∧ clarabelSet g v o = .ok o') ∨
    (∃ o o', q = .qpoases o ∧ q' = .qpoases o' ∧ qpoasesSet g v o = .ok o') ∨
    (∃ o o', q = .daqp o ∧ q' = .daqp o' ∧ daqpSet g v o = .ok o') ∨
    (∃ o o', q = .qpdunes o ∧ q' = .qpdunes o' ∧ qpdunesSet g v o = .ok o') ∨
    (∃ o o', q = .hpmpc o ∧ q' = .hpmpc o' ∧ hpmpcSet g v o = .ok o') ∨ (q = .plain ∧ q' = .plain) := by
  cases q with
  | hpipm o => obtain ⟨o', h1, rfl⟩ := ok_map h; exact .inl ⟨o, o', rfl, rfl, h1⟩
  | osqp o => obtain ⟨o', h1, rfl⟩ := ok_map h; exact .inr (.inl ⟨o, o', rfl, rfl, h1⟩)
  | clarabel o => obtain ⟨o', h1, rfl⟩ := ok_map h; exact .inr (.inr (.inl ⟨o, o', rfl, rfl, h1⟩))
  | qpoases o => obtain ⟨o', h1, rfl⟩ := ok_map h; exact .inr (.inr (.inr (.inl ⟨o, o', rfl, rfl, h1⟩)))
  | daqp o => obtain ⟨o', h1, rfl⟩ := ok_map h; exact .inr (.inr (.inr (.inr (.inl ⟨o, o', rfl, rfl, h1⟩))))
  | qpdunes o => obtain ⟨o', h1, rfl⟩ := ok_map h; exact .inr (.inr (.inr (.inr (.inr (.inl ⟨o, o', rfl, rfl, h1⟩)))))
  | hpmpc o =>
    obtain ⟨o', h1, rfl⟩ := ok_map h; exact .inr (.inr (.inr (.inr (.inr (.inr (.inl ⟨o, o', rfl, rfl, h1⟩))))))
  | plain =>
    rcases ite_cases h with ⟨-, h⟩ | ⟨-, h⟩
    · injection h with h; exact .inr (.inr (.inr (.inr (.inr (.inr (.inr ⟨rfl, h.symm⟩))))))
    · cases h

theorem isObsH (p : Hpipm K → K) (t : Name) (r : K) (ht : t ∈ tolNames)
    (hp : ∀ g v o o', hpipmSet E g v o = .ok o' → p o' = hpUpd t r g v (p o)) :
    IsObs E (obsH p) (hpUpd t r) id := by
  have hq : ∀ g ∈ ["print_level".toList, "warm_start".toList], g ∉ [t] := by
    intro g hg h
    rw [List.mem_singleton] at h
    rw [h] at hg
    simp only [tolNames, List.mem_cons, List.not_mem_nil, or_false] at ht
    rcases ht with ht | ht | ht | ht <;> subst ht <;> exact absurd hg (by decide)
  refine ⟨?_, ?_, ?_, ?_⟩
  · intro g v q q' h
    rcases qpSet_kind h with ⟨o, o', rfl, rfl, h1⟩ | ⟨o, o', rfl, rfl, h1⟩ | ⟨o, o', rfl, rfl, h1⟩ |
      ⟨o, o', rfl, rfl, h1⟩ | ⟨o, o', rfl, rfl, h1⟩ | ⟨o, o', rfl, rfl, h1⟩ | ⟨o, o', rfl, rfl, h1⟩ | ⟨rfl, rfl⟩
    · show some (p o') = some (hpUpd t r g v (p o))
      rw [hp g v o o' h1]
    all_goals rfl
  · intro v a
    exact regUpd_miss (by decide) (hq _ (by decide))
  · intro v a
    exact regUpd_miss (by decide) (hq _ (by decide))
  · intro q
    cases q <;> rfl

omit [Field K] [LinearOrder K] in
theorem last_eq (t : Name) (r d : K) (h : List (Ev K)) :
    h.foldl (regAfter lastOp ([t] ++ [t].map qpName) (["hpipm_mode".toList].map qpName) r) d =
      last [t, qpName t] modeName r d h := by
  unfold last
  congr 1

/-- the value of one tolerance of HPIPM after a history -/
theorem hpipm_reg {p : Hpipm K → K} {t : Name} {r : K} (ht : t ∈ tolNames)
    (hp : ∀ g v o o', hpipmSet E g v o = .ok o' → p o' = hpUpd t r g v (p o)) {o : Hpipm K} {s0 s s1 : Nlp K}
    {h : List (Ev K)} {d : QpData K} (h0 : nlpDefault E (.hpipm o) = .ok s0) (hr : run E h s0 = .ok s)
    (hf : Fixed h) (hu : qpUsed E d s = .ok s1) :
    ∃ o1, s1.x.qp = .hpipm o1 ∧ p o1 = last [t, qpName t] modeName r (1 / 10 ^ 8) h := by
  have ho := isObsH (E := E) p t r ht hp
  obtain ⟨hd, hst, -⟩ := default_obs ho h0
  obtain ⟨hrun, hst'⟩ := run_obs ho h hr hst hf
  have hq := (qpUsed_fixed ho hu hst').1
  have hv : ∀ a : K, hpUpd t r "tol_comp".toList (.dbl (1 / 10 ^ 8)) (hpUpd t r "tol_ineq".toList (.dbl (1 / 10 ^ 8))
      (hpUpd t r "tol_eq".toList (.dbl (1 / 10 ^ 8)) (hpUpd t r "tol_stat".toList (.dbl (1 / 10 ^ 8)) a))) =
      1 / 10 ^ 8 := by
    intro a
    simp only [tolNames, List.mem_cons, List.not_mem_nil, or_false] at ht
    unfold hpUpd
    rcases ht with ht | ht | ht | ht <;> subst ht
    · rw [regUpd_miss (g := "tol_comp".toList) (by decide) (by decide),
        regUpd_miss (g := "tol_ineq".toList) (by decide) (by decide),
        regUpd_miss (g := "tol_eq".toList) (by decide) (by decide), regUpd_hit (by decide) (by decide) rfl]
    · rw [regUpd_miss (g := "tol_comp".toList) (by decide) (by decide),
        regUpd_miss (g := "tol_ineq".toList) (by decide) (by decide), regUpd_hit (by decide) (by decide) rfl]
    · rw [regUpd_miss (g := "tol_comp".toList) (by decide) (by decide), regUpd_hit (by decide) (by decide) rfl]
    · rw [regUpd_hit (by decide) (by decide) rfl]
  have hg : ∀ g ∈ [t], g ∈ tolNames := fun g hg => by rw [List.mem_singleton.mp hg]; exact ht
  have he : obsH p s1.x.qp = some (last [t, qpName t] modeName r (1 / 10 ^ 8) h) := by
    rw [hq, hrun, hd]
    show some (h.foldl _ (hpUpd t r _ _ _)) = _
    rw [hv, fold_reg lastOp r hg (.inr rfl), last_eq]
  cases hx : s1.x.qp with
  | hpipm o1 =>
    rw [hx] at he
    injection he with he
    exact ⟨o1, rfl, he⟩
  | _ => rw [hx] at he; cases he

/-- **C100 (HPIPM).**  With fixed QP tolerances, HPIPM is called with the tolerance last set under its name, be it the
name of the NLP tolerance or of the QP tolerance, whatever other options were set and however many QPs were solved in
between; selecting a mode of HPIPM sets the tolerances to `10⁻⁶`, `10⁻⁸`, `10⁻⁸`, `10⁻⁸`.  If none was ever set it is
`10⁻⁸`. -/
theorem C100_hpipm {o : Hpipm K} {s0 s s1 : Nlp K} {h : List (Ev K)} {d : QpData K}
    (h0 : nlpDefault E (.hpipm o) = .ok s0) (hr : run E h s0 = .ok s) (hf : Fixed h) (hu : qpUsed E d s = .ok s1) :
    ∃ o1, s1.x.qp = .hpipm o1 ∧
      o1.resG = last (both "tol_stat") modeName (1 / 10 ^ 6) (1 / 10 ^ 8) h ∧
      o1.resB = last (both "tol_eq") modeName (1 / 10 ^ 8) (1 / 10 ^ 8) h ∧
      o1.resD = last (both "tol_ineq") modeName (1 / 10 ^ 8) (1 / 10 ^ 8) h ∧
      o1.resM = last (both "tol_comp") modeName (1 / 10 ^ 8) (1 / 10 ^ 8) h := by
  obtain ⟨o1, e1, hG⟩ := hpipm_reg (p := (·.resG)) (by decide) (fun g v o o' h => (hpipmSet_regs h).1) h0 hr hf hu
  obtain ⟨o2, e2, hB⟩ := hpipm_reg (p := (·.resB)) (by decide) (fun g v o o' h => (hpipmSet_regs h).2.1) h0 hr hf hu
  obtain ⟨o3, e3, hD⟩ := hpipm_reg (p := (·.resD)) (by decide) (fun g v o o' h => (hpipmSet_regs h).2.2.1) h0 hr hf hu
  obtain ⟨o4, e4, hM⟩ := hpipm_reg (p := (·.resM)) (by decide) (fun g v o o' h => (hpipmSet_regs h).2.2.2) h0 hr hf hu
  rw [e1] at e2 e3 e4
  injection e2 with e2
  injection e3 with e3
  injection e4 with e4
  subst e2
  subst e3
  subst e4
  exact ⟨o1, e1, hG, hB, hD, hM⟩

/-- **C100** (modes).  In every state of the options, HPIPM accepts exactly its four modes; any other name ends the program. -/
theorem C100_modes {o1 : Hpipm K} {s : Nlp K} (e : s.x.qp = .hpipm o1) (m : Name) :
    if m = "BALANCE".toList ∨ m = "SPEED".toList ∨ m = "SPEED_ABS".toList ∨ m = "ROBUST".toList then
      ∃ s', step E (.set "qp_hpipm_mode".toList (.str m)) s = .ok s'
    else step E (.set "qp_hpipm_mode".toList (.str m)) s = .error .exit := by
  have hm : moduleOf "qp_hpipm_mode".toList = some "qp".toList := by decide
  have hrest : restOf "qp_hpipm_mode".toList = "hpipm_mode".toList := by decide
  have hc : moduleOf "hpipm_mode".toList ≠ some "cond".toList := by decide
  have hstep : step E (.set "qp_hpipm_mode".toList (.str m)) s
      = ((hpipmSet E "hpipm_mode".toList (.str m) o1).map Qp.hpipm).map fun q => { s with x := { s.x with qp := q } } := by
    change nlpSet E _ _ s = _
    unfold nlpSet
    rw [if_pos hm, hrest]
    unfold Nlp.direct xcondSet
    rw [if_neg hc, if_neg (by decide), e]
    simp only [qpSet]
    cases hpipmSet E "hpipm_mode".toList (.str m) o1 <;> rfl
  rw [hstep]
  have hs : hpipmSet E "hpipm_mode".toList (.str m) o1
      = if m ∈ hpipmModes then .ok (hpipmOverwrite { o1 with warm := E.modeWarm m }) else .error .exit := by
    unfold hpipmSet
    rw [if_pos rfl]
    rfl
  rw [hs]
  by_cases hx : m ∈ hpipmModes
  · rw [if_pos hx, if_pos (by simpa [hpipmModes] using hx)]
    exact ⟨_, rfl⟩
  · rw [if_neg hx, if_neg (by simpa [hpipmModes] using hx)]
    rfl

theorem osqpSet_regs {g : Name} {v : Val K} {o o' : Osqp K} (h : osqpSet g v o = .ok o') :
    o'.epsRel = regUpd (fun _ x => max x (1 / 10 ^ 5)) ["tol_stat".toList] [] 0 g v o.epsRel ∧
    o'.epsDualInf = regUpd (fun _ x => max x (1 / 10 ^ 5)) ["tol_stat".toList] [] 0 g v o.epsDualInf ∧
    o'.epsPrimInf = regUpd lastOp ["tol_eq".toList, "tol_ineq".toList] [] 0 g v o.epsPrimInf ∧
    o'.polish = regUpd (fun b x => if x ≤ 1 / 10 ^ 3 then true else b) ["tol_stat".toList] [] true g v o.polish := by
  unfold osqpSet at h
  rcases ite_cases h with ⟨h1, h⟩ | ⟨h1, h⟩
  · obtain ⟨x, hx, h⟩ := ok_bind h; injection h with h; subst h; subst h1
    exact ⟨regMiss (by decide) (by decide), regMiss (by decide) (by decide), regMiss (by decide) (by decide), regMiss (by decide) (by decide)⟩
  rcases ite_cases h with ⟨h2, h⟩ | ⟨h2, h⟩
  · obtain ⟨x, hx, h⟩ := ok_bind h; injection h with h; subst h; subst h2
    exact ⟨regMiss (by decide) (by decide), regMiss (by decide) (by decide), regMiss (by decide) (by decide), regMiss (by decide) (by decide)⟩
  rcases ite_cases h with ⟨h3, h⟩ | ⟨h3, h⟩
  · obtain ⟨x, hx, h⟩ := ok_bind h; injection h with h; subst h; subst h3
    exact ⟨by rw [regUpd_hit (by decide) (by decide) (asDbl_ok hx)], by rw [regUpd_hit (by decide) (by decide) (asDbl_ok hx)], regMiss (by decide) (by decide), by rw [regUpd_hit (by decide) (by decide) (asDbl_ok hx)]⟩
  rcases ite_cases h with ⟨h4, h⟩ | ⟨h4, h⟩
  · obtain ⟨x, hx, h⟩ := ok_bind h; injection h with h; subst h; subst h4
    exact ⟨regMiss (by decide) (by decide), regMiss (by decide) (by decide), by rw [regUpd_hit (by decide) (by decide) (asDbl_ok hx)], regMiss (by decide) (by decide)⟩
  rcases ite_cases h with ⟨h5, h⟩ | ⟨h5, h⟩
  · obtain ⟨x, hx, h⟩ := ok_bind h; injection h with h; subst h; subst h5
    exact ⟨regMiss (by decide) (by decide), regMiss (by decide) (by decide), by rw [regUpd_hit (by decide) (by decide) (asDbl_ok hx)], regMiss (by decide) (by decide)⟩
  rcases ite_cases h with ⟨h6, h⟩ | ⟨h6, h⟩
  · injection h with h; subst h; subst h6
    exact ⟨regMiss (by decide) (by decide), regMiss (by decide) (by decide), regMiss (by decide) (by decide), regMiss (by decide) (by decide)⟩
  rcases ite_cases h with ⟨h7, h⟩ | ⟨h7, h⟩
  · obtain ⟨x, hx, h⟩ := ok_bind h; injection h with h; subst h; subst h7
    exact ⟨regMiss (by decide) (by decide), regMiss (by decide) (by decide), regMiss (by decide) (by decide), regMiss (by decide) (by decide)⟩
  cases h

theorem qpoasesSet_regs {g : Name} {v : Val K} {o o' : Qpoases K} (h : qpoasesSet g v o = .ok o') :
    o'.tolerance = regUpd (fun a x => min a x) tolNames [] 0 g v o.tolerance := by
  unfold qpoasesSet at h
  rcases ite_cases h with ⟨h1, h⟩ | ⟨h1, h⟩
  · obtain ⟨x, hx, h⟩ := ok_bind h; injection h with h; subst h; subst h1
    exact by rw [regUpd_hit (by decide) (by decide) (asDbl_ok hx)]
  rcases ite_cases h with ⟨h2, h⟩ | ⟨h2, h⟩
  · obtain ⟨x, hx, h⟩ := ok_bind h; injection h with h; subst h; subst h2
    exact by rw [regUpd_hit (by decide) (by decide) (asDbl_ok hx)]
  rcases ite_cases h with ⟨h3, h⟩ | ⟨h3, h⟩
  · obtain ⟨x, hx, h⟩ := ok_bind h; injection h with h; subst h; subst h3
    exact by rw [regUpd_hit (by decide) (by decide) (asDbl_ok hx)]
  rcases ite_cases h with ⟨h4, h⟩ | ⟨h4, h⟩
  · obtain ⟨x, hx, h⟩ := ok_bind h; injection h with h; subst h; subst h4
    exact by rw [regUpd_hit (by decide) (by decide) (asDbl_ok hx)]
  rcases ite_cases h with ⟨h5, h⟩ | ⟨h5, h⟩
  · obtain ⟨x, hx, hw⟩ := ok_bind h
    subst h5
    rcases ite_cases hw with ⟨hn, hw⟩ | ⟨hn, hw⟩
    · injection hw with hw; subst hw; exact regMiss (by decide) (by decide)
    rcases ite_cases hw with ⟨hn, hw⟩ | ⟨hn, hw⟩
    · injection hw with hw; subst hw; exact regMiss (by decide) (by decide)
    rcases ite_cases hw with ⟨hn, hw⟩ | ⟨hn, hw⟩
    · injection hw with hw; subst hw; exact regMiss (by decide) (by decide)
    cases hw
  rcases ite_cases h with ⟨h6, h⟩ | ⟨h6, h⟩
  · obtain ⟨x, hx, h⟩ := ok_bind h; injection h with h; subst h; subst h6
    exact regMiss (by decide) (by decide)
  rcases ite_cases h with ⟨h7, h⟩ | ⟨h7, h⟩
  · injection h with h; subst h; subst h7
    exact regMiss (by decide) (by decide)
  cases h

omit [LinearOrder K] in
theorem daqpSet_regs {g : Name} {v : Val K} {o o' : Daqp K} (h : daqpSet g v o = .ok o') :
    o'.primalTol = regUpd lastOp ["tol_ineq".toList] [] 0 g v o.primalTol := by
  unfold daqpSet at h
  rcases ite_cases h with ⟨h1, h⟩ | ⟨h1, h⟩
  · injection h with h; subst h; subst h1
    exact regMiss (by decide) (by decide)
  rcases ite_cases h with ⟨h2, h⟩ | ⟨h2, h⟩
  · injection h with h; subst h; subst h2
    exact regMiss (by decide) (by decide)
  rcases ite_cases h with ⟨h3, h⟩ | ⟨h3, h⟩
  · obtain ⟨x, hx, h⟩ := ok_bind h; injection h with h; subst h; subst h3
    exact by rw [regUpd_hit (by decide) (by decide) (asDbl_ok hx)]
  rcases ite_cases h with ⟨h4, h⟩ | ⟨h4, h⟩
  · injection h with h; subst h; subst h4
    exact regMiss (by decide) (by decide)
  rcases ite_cases h with ⟨h5, h⟩ | ⟨h5, h⟩
  · obtain ⟨x, hx, h⟩ := ok_bind h; injection h with h; subst h; subst h5
    exact regMiss (by decide) (by decide)
  rcases ite_cases h with ⟨h6, h⟩ | ⟨h6, h⟩
  · obtain ⟨x, hx, h⟩ := ok_bind h; injection h with h; subst h; subst h6
    exact regMiss (by decide) (by decide)
  rcases ite_cases h with ⟨h7, h⟩ | ⟨h7, h⟩
  · obtain ⟨x, hx, h⟩ := ok_bind h; injection h with h; subst h; subst h7
    exact regMiss (by decide) (by decide)
  cases h

omit [LinearOrder K] in
theorem qpdunesSet_regs {g : Name} {v : Val K} {o o' : Qpdunes K} (h : qpdunesSet g v o = .ok o') :
    o'.stat = regUpd (fun _ x => 1 / 10 * x) ["tol_stat".toList] [] 0 g v o.stat ∧
    o'.eq = regUpd lastOp ["tol_eq".toList] [] 0 g v o.eq ∧
    o'.act = regUpd lastOp ["tol_ineq".toList] [] 0 g v o.act := by
  unfold qpdunesSet at h
  rcases ite_cases h with ⟨h1, h⟩ | ⟨h1, h⟩
  · obtain ⟨x, hx, h⟩ := ok_bind h; injection h with h; subst h; subst h1
    exact ⟨by rw [regUpd_hit (by decide) (by decide) (asDbl_ok hx)], regMiss (by decide) (by decide), regMiss (by decide) (by decide)⟩
  rcases ite_cases h with ⟨h2, h⟩ | ⟨h2, h⟩
  · obtain ⟨x, hx, h⟩ := ok_bind h; injection h with h; subst h; subst h2
    exact ⟨regMiss (by decide) (by decide), by rw [regUpd_hit (by decide) (by decide) (asDbl_ok hx)], regMiss (by decide) (by decide)⟩
  rcases ite_cases h with ⟨h3, h⟩ | ⟨h3, h⟩
  · obtain ⟨x, hx, h⟩ := ok_bind h; injection h with h; subst h; subst h3
    exact ⟨regMiss (by decide) (by decide), regMiss (by decide) (by decide), by rw [regUpd_hit (by decide) (by decide) (asDbl_ok hx)]⟩
  rcases ite_cases h with ⟨h4, h⟩ | ⟨h4, h⟩
  · injection h with h; subst h; subst h4
    exact ⟨regMiss (by decide) (by decide), regMiss (by decide) (by decide), regMiss (by decide) (by decide)⟩
  rcases ite_cases h with ⟨h5, h⟩ | ⟨h5, h⟩
  · injection h with h; subst h; subst h5
    exact ⟨regMiss (by decide) (by decide), regMiss (by decide) (by decide), regMiss (by decide) (by decide)⟩
  rcases ite_cases h with ⟨h6, h⟩ | ⟨h6, h⟩
  · obtain ⟨x, hx, h⟩ := ok_bind h; injection h with h; subst h; subst h6
    exact ⟨regMiss (by decide) (by decide), regMiss (by decide) (by decide), regMiss (by decide) (by decide)⟩
  rcases ite_cases h with ⟨h7, h⟩ | ⟨h7, h⟩
  · injection h with h; subst h; subst h7
    exact ⟨regMiss (by decide) (by decide), regMiss (by decide) (by decide), regMiss (by decide) (by decide)⟩
  cases h

omit [LinearOrder K] in
theorem hpmpcSet_regs {g : Name} {v : Val K} {o o' : Hpmpc K} (h : hpmpcSet g v o = .ok o') :
    o'.tol = regUpd lastOp ["tol_comp".toList] [] 0 g v o.tol := by
  unfold hpmpcSet at h
  rcases ite_cases h with ⟨h1, h⟩ | ⟨h1, h⟩
  · obtain ⟨x, hx, h⟩ := ok_bind h; injection h with h; subst h; subst h1
    exact regMiss (by decide) (by decide)
  rcases ite_cases h with ⟨h2, h⟩ | ⟨h2, h⟩
  · injection h with h; subst h; subst h2
    exact regMiss (by decide) (by decide)
  rcases ite_cases h with ⟨h3, h⟩ | ⟨h3, h⟩
  · injection h with h; subst h; subst h3
    exact regMiss (by decide) (by decide)
  rcases ite_cases h with ⟨h4, h⟩ | ⟨h4, h⟩
  · injection h with h; subst h; subst h4
    exact regMiss (by decide) (by decide)
  rcases ite_cases h with ⟨h5, h⟩ | ⟨h5, h⟩
  · obtain ⟨x, hx, h⟩ := ok_bind h; injection h with h; subst h; subst h5
    exact by rw [regUpd_hit (by decide) (by decide) (asDbl_ok hx)]
  rcases ite_cases h with ⟨h6, h⟩ | ⟨h6, h⟩
  · obtain ⟨x, hx, h⟩ := ok_bind h; injection h with h; subst h; subst h6
    exact regMiss (by decide) (by decide)
  rcases ite_cases h with ⟨h7, h⟩ | ⟨h7, h⟩
  · injection h with h; subst h; subst h7
    exact regMiss (by decide) (by decide)
  cases h


/-! ### Solvers other than HPIPM -/

/-- an observation with one register -/
theorem isObsReg {obs : Qp K → Option α} {op : α → K → α} {gs : List Name} {r : α} (hg : ∀ g ∈ gs, g ∈ tolNames)
    (hs : ∀ g v q q', qpSet E g v q = .ok q' → obs q' = (obs q).map (regUpd op gs [] r g v))
    (hc : ∀ q, obs (qpCalled q) = obs q) : IsObs E obs (regUpd op gs [] r) id := by
  refine ⟨hs, ?_, ?_, ?_⟩
  · intro v a
    exact regUpd_miss (by decide) (fun h => absurd (hg _ h) (by decide))
  · intro v a
    exact regUpd_miss (by decide) (fun h => absurd (hg _ h) (by decide))
  · intro q
    rw [hc]
    simp

/-- the four tolerances set with the default options -/
def init (upd : Name → Val K → α → α) (a : α) : α :=
  upd "tol_comp".toList (.dbl (1 / 10 ^ 8)) (upd "tol_ineq".toList (.dbl (1 / 10 ^ 8))
    (upd "tol_eq".toList (.dbl (1 / 10 ^ 8)) (upd "tol_stat".toList (.dbl (1 / 10 ^ 8)) a)))

/-- the value of a register after a history -/
theorem reg_run {obs : Qp K → Option α} {op : α → K → α} {gs : List Name} {r : α} (hg : ∀ g ∈ gs, g ∈ tolNames)
    (hs : ∀ g v q q', qpSet E g v q = .ok q' → obs q' = (obs q).map (regUpd op gs [] r g v))
    (hc : ∀ q, obs (qpCalled q) = obs q) {q : Qp K} {s0 s s1 : Nlp K} {h : List (Ev K)} {d : QpData K}
    (h0 : nlpDefault E q = .ok s0) (hr : run E h s0 = .ok s) (hf : Fixed h) (hu : qpUsed E d s = .ok s1) :
    obs s1.x.qp = (obs q).map fun a =>
      h.foldl (regAfter op (gs ++ gs.map qpName) [] r) (init (regUpd op gs [] r) a) := by
  have ho := isObsReg hg hs hc
  obtain ⟨hd, hst, -⟩ := default_obs ho h0
  obtain ⟨hrun, hst'⟩ := run_obs ho h hr hst hf
  rw [(qpUsed_fixed ho hu hst').1, hrun, hd, Option.map_map]
  congr 1
  funext a
  exact fold_reg op r hg (.inl rfl) h _

omit [Field K] [LinearOrder K] in
theorem fold_last (names : List Name) (r d : K) (h : List (Ev K)) :
    h.foldl (regAfter lastOp names [] r) d = last names [] r d h := by
  unfold last
  congr 1

omit [Field K] [LinearOrder K] in
/-- a register that keeps a function of the last value -/
theorem fold_fun (f : K → α) (names : List Name) (r : α) (r' : K) : ∀ (h : List (Ev K)) (a : K),
    h.foldl (regAfter (fun _ x => f x) names [] r) (f a) = f (last names [] r' a h)
  | [], a => rfl
  | e :: h, a => by
    have he : regAfter (fun _ x => f x) names [] r (f a) e = f (after names [] r' a e) := by
      unfold regAfter after
      cases e with
      | set n v =>
        cases v with
        | dbl x =>
          by_cases hn : n ∈ names
          · simp only [if_pos hn]
          · simp only [if_neg hn, List.not_mem_nil, if_false]
        | int x => simp only [List.not_mem_nil, if_false]
        | str x => simp only [List.not_mem_nil, if_false]
      | start => rfl
      | qp d => rfl
    show h.foldl _ (regAfter _ _ _ _ _ e) = f (last names [] r' (after names [] r' a e) h)
    rw [he]
    exact fold_fun f names r r' h _

omit [Field K] [LinearOrder K] in
/-- a register that collects all values -/
theorem fold_values (op : α → K → α) (names : List Name) (r : α) : ∀ (h : List (Ev K)) (a : α),
    h.foldl (regAfter op names [] r) a = (values names h).foldl op a
  | [], a => rfl
  | e :: h, a => by
    show h.foldl _ (regAfter op names [] r a e) = _
    rw [fold_values op names r h]
    cases e with
    | set n v =>
      cases v with
      | dbl x =>
        have hv : values names (.set n (.dbl x) :: h) = if n ∈ names then x :: values names h else values names h := rfl
        rw [hv]
        unfold regAfter
        by_cases hn : n ∈ names
        · simp only [if_pos hn, List.foldl_cons]
        · simp only [if_neg hn, List.not_mem_nil, if_false]
      | int x => rfl
      | str x => rfl
    | start => rfl
    | qp d => rfl

/-- an observation of the options of OSQP -/
def obsO (p : Osqp K → α) : Qp K → Option α
  | .osqp o => some (p o)
  | _ => none

theorem obsO_set (p : Osqp K → α) {op : α → K → α} {gs : List Name} {r : α}
    (hp : ∀ g v o o', osqpSet g v o = .ok o' → p o' = regUpd op gs [] r g v (p o)) (g : Name) (v : Val K)
    (q q' : Qp K) (h : qpSet E g v q = .ok q') : obsO p q' = (obsO p q).map (regUpd op gs [] r g v) := by
  rcases qpSet_kind h with ⟨o, o', rfl, rfl, h1⟩ | ⟨o, o', rfl, rfl, h1⟩ | ⟨o, o', rfl, rfl, h1⟩ |
    ⟨o, o', rfl, rfl, h1⟩ | ⟨o, o', rfl, rfl, h1⟩ | ⟨o, o', rfl, rfl, h1⟩ | ⟨o, o', rfl, rfl, h1⟩ | ⟨rfl, rfl⟩
  all_goals first
    | exact congrArg some (hp g v o o' h1)
    | rfl

omit [Field K] [LinearOrder K] in
theorem obsO_called (p : Osqp K → α) (q : Qp K) : obsO p (qpCalled q) = obsO p q := by
  cases q <;> rfl

omit [Field K] [LinearOrder K] in
theorem obsO_some {p : Osqp K → α} {q : Qp K} {a : α} (h : obsO p q = some a) : ∃ o, q = .osqp o ∧ p o = a := by
  cases q with
  | osqp o => injection h with h; exact ⟨o, rfl, h⟩
  | _ => cases h

/-- an observation of the options of qpOASES -/
def obsA (p : Qpoases K → α) : Qp K → Option α
  | .qpoases o => some (p o)
  | _ => none

theorem obsA_set (p : Qpoases K → α) {op : α → K → α} {gs : List Name} {r : α}
    (hp : ∀ g v o o', qpoasesSet g v o = .ok o' → p o' = regUpd op gs [] r g v (p o)) (g : Name) (v : Val K)
    (q q' : Qp K) (h : qpSet E g v q = .ok q') : obsA p q' = (obsA p q).map (regUpd op gs [] r g v) := by
  rcases qpSet_kind h with ⟨o, o', rfl, rfl, h1⟩ | ⟨o, o', rfl, rfl, h1⟩ | ⟨o, o', rfl, rfl, h1⟩ |
    ⟨o, o', rfl, rfl, h1⟩ | ⟨o, o', rfl, rfl, h1⟩ | ⟨o, o', rfl, rfl, h1⟩ | ⟨o, o', rfl, rfl, h1⟩ | ⟨rfl, rfl⟩
  all_goals first
    | exact congrArg some (hp g v o o' h1)
    | rfl

omit [Field K] [LinearOrder K] in
theorem obsA_called (p : Qpoases K → α) (q : Qp K) : obsA p (qpCalled q) = obsA p q := by
  cases q <;> rfl

omit [Field K] [LinearOrder K] in
theorem obsA_some {p : Qpoases K → α} {q : Qp K} {a : α} (h : obsA p q = some a) : ∃ o, q = .qpoases o ∧ p o = a := by
  cases q with
  | qpoases o => injection h with h; exact ⟨o, rfl, h⟩
  | _ => cases h

/-- an observation of the options of DAQP -/
def obsD (p : Daqp K → α) : Qp K → Option α
  | .daqp o => some (p o)
  | _ => none

theorem obsD_set (p : Daqp K → α) {op : α → K → α} {gs : List Name} {r : α}
    (hp : ∀ g v o o', daqpSet g v o = .ok o' → p o' = regUpd op gs [] r g v (p o)) (g : Name) (v : Val K)
    (q q' : Qp K) (h : qpSet E g v q = .ok q') : obsD p q' = (obsD p q).map (regUpd op gs [] r g v) := by
  rcases qpSet_kind h with ⟨o, o', rfl, rfl, h1⟩ | ⟨o, o', rfl, rfl, h1⟩ | ⟨o, o', rfl, rfl, h1⟩ |
    ⟨o, o', rfl, rfl, h1⟩ | ⟨o, o', rfl, rfl, h1⟩ | ⟨o, o', rfl, rfl, h1⟩ | ⟨o, o', rfl, rfl, h1⟩ | ⟨rfl, rfl⟩
  all_goals first
    | exact congrArg some (hp g v o o' h1)
    | rfl

omit [Field K] [LinearOrder K] in
theorem obsD_called (p : Daqp K → α) (q : Qp K) : obsD p (qpCalled q) = obsD p q := by
  cases q <;> rfl

omit [Field K] [LinearOrder K] in
theorem obsD_some {p : Daqp K → α} {q : Qp K} {a : α} (h : obsD p q = some a) : ∃ o, q = .daqp o ∧ p o = a := by
  cases q with
  | daqp o => injection h with h; exact ⟨o, rfl, h⟩
  | _ => cases h

/-- an observation of the options of qpDUNES -/
def obsU (p : Qpdunes K → α) : Qp K → Option α
  | .qpdunes o => some (p o)
  | _ => none

theorem obsU_set (p : Qpdunes K → α) {op : α → K → α} {gs : List Name} {r : α}
    (hp : ∀ g v o o', qpdunesSet g v o = .ok o' → p o' = regUpd op gs [] r g v (p o)) (g : Name) (v : Val K)
    (q q' : Qp K) (h : qpSet E g v q = .ok q') : obsU p q' = (obsU p q).map (regUpd op gs [] r g v) := by
  rcases qpSet_kind h with ⟨o, o', rfl, rfl, h1⟩ | ⟨o, o', rfl, rfl, h1⟩ | ⟨o, o', rfl, rfl, h1⟩ |
    ⟨o, o', rfl, rfl, h1⟩ | ⟨o, o', rfl, rfl, h1⟩ | ⟨o, o', rfl, rfl, h1⟩ | ⟨o, o', rfl, rfl, h1⟩ | ⟨rfl, rfl⟩
  all_goals first
    | exact congrArg some (hp g v o o' h1)
    | rfl

omit [Field K] [LinearOrder K] in
theorem obsU_called (p : Qpdunes K → α) (q : Qp K) : obsU p (qpCalled q) = obsU p q := by
  cases q <;> rfl

omit [Field K] [LinearOrder K] in
theorem obsU_some {p : Qpdunes K → α} {q : Qp K} {a : α} (h : obsU p q = some a) : ∃ o, q = .qpdunes o ∧ p o = a := by
  cases q with
  | qpdunes o => injection h with h; exact ⟨o, rfl, h⟩
  | _ => cases h

/-- an observation of the options of HPMPC -/
def obsM (p : Hpmpc K → α) : Qp K → Option α
  | .hpmpc o => some (p o)
  | _ => none

theorem obsM_set (p : Hpmpc K → α) {op : α → K → α} {gs : List Name} {r : α}
    (hp : ∀ g v o o', hpmpcSet g v o = .ok o' → p o' = regUpd op gs [] r g v (p o)) (g : Name) (v : Val K)
    (q q' : Qp K) (h : qpSet E g v q = .ok q') : obsM p q' = (obsM p q).map (regUpd op gs [] r g v) := by
  rcases qpSet_kind h with ⟨o, o', rfl, rfl, h1⟩ | ⟨o, o', rfl, rfl, h1⟩ | ⟨o, o', rfl, rfl, h1⟩ |
    ⟨o, o', rfl, rfl, h1⟩ | ⟨o, o', rfl, rfl, h1⟩ | ⟨o, o', rfl, rfl, h1⟩ | ⟨o, o', rfl, rfl, h1⟩ | ⟨rfl, rfl⟩
  all_goals first
    | exact congrArg some (hp g v o o' h1)
    | rfl

omit [Field K] [LinearOrder K] in
theorem obsM_called (p : Hpmpc K → α) (q : Qp K) : obsM p (qpCalled q) = obsM p q := by
  cases q <;> rfl

omit [Field K] [LinearOrder K] in
theorem obsM_some {p : Hpmpc K → α} {q : Qp K} {a : α} (h : obsM p q = some a) : ∃ o, q = .hpmpc o ∧ p o = a := by
  cases q with
  | hpmpc o => injection h with h; exact ⟨o, rfl, h⟩
  | _ => cases h

/-- **C100 (OSQP).**  With fixed QP tolerances, OSQP is called with the relative tolerance and the dual infeasibility
tolerance equal to the last stationarity tolerance, but not below `10⁻⁵`; its primal infeasibility tolerance is the
last one set for equalities or inequalities, whichever came later; the tolerance for complementarity is not used; the
solution is polished. -/
theorem C100_osqp_partial {o : Osqp K} {s0 s s1 : Nlp K} {h : List (Ev K)} {d : QpData K} (hD : IsDefault E (.osqp o))
    (h0 : nlpDefault E (.osqp o) = .ok s0) (hr : run E h s0 = .ok s) (hf : Fixed h) (hu : qpUsed E d s = .ok s1) :
    ∃ o1, s1.x.qp = .osqp o1 ∧
      o1.epsRel = max (last (both "tol_stat") [] 0 (1 / 10 ^ 8) h) (1 / 10 ^ 5) ∧
      o1.epsDualInf = max (last (both "tol_stat") [] 0 (1 / 10 ^ 8) h) (1 / 10 ^ 5) ∧
      o1.epsPrimInf = last feasTols [] 0 (1 / 10 ^ 8) h ∧ o1.polish = true := by
  have hR := reg_run (gs := ["tol_stat".toList]) (by decide)
    (obsO_set (E := E) (·.epsRel) (fun g v o o' h => (osqpSet_regs h).1)) (obsO_called _) h0 hr hf hu
  have hB := reg_run (gs := ["tol_stat".toList]) (by decide)
    (obsO_set (E := E) (·.epsDualInf) (fun g v o o' h => (osqpSet_regs h).2.1)) (obsO_called _) h0 hr hf hu
  have hP := reg_run (gs := ["tol_eq".toList, "tol_ineq".toList]) (by decide)
    (obsO_set (E := E) (·.epsPrimInf) (fun g v o o' h => (osqpSet_regs h).2.2.1)) (obsO_called _) h0 hr hf hu
  have hQ := reg_run (gs := ["tol_stat".toList]) (by decide)
    (obsO_set (E := E) (·.polish) (fun g v o o' h => (osqpSet_regs h).2.2.2)) (obsO_called _) h0 hr hf hu
  have i1 : ∀ a : K, init (regUpd (fun _ x => max x (1 / 10 ^ 5)) ["tol_stat".toList] [] (0 : K)) a =
      max (1 / 10 ^ 8) (1 / 10 ^ 5) := by
    intro a
    unfold init
    rw [regUpd_miss (g := "tol_comp".toList) (by decide) (by decide),
        regUpd_miss (g := "tol_ineq".toList) (by decide) (by decide),
        regUpd_miss (g := "tol_eq".toList) (by decide) (by decide), regUpd_hit (by decide) (by decide) rfl]
  have i2 : ∀ a : K, init (regUpd lastOp ["tol_eq".toList, "tol_ineq".toList] [] (0 : K)) a = 1 / 10 ^ 8 := by
    intro a
    unfold init
    rw [regUpd_miss (g := "tol_comp".toList) (by decide) (by decide), regUpd_hit (by decide) (by decide) rfl]
  simp only [obsO, Option.map_some, i1, i2, fold_last, fold_fun (fun x => max x (1 / 10 ^ 5)) _ (0 : K) (0 : K)]
    at hR hB hP hQ
  obtain ⟨o1, e1, p1⟩ := obsO_some hR
  obtain ⟨o2, e2, p2⟩ := obsO_some hP
  obtain ⟨o3, e3, p3⟩ := obsO_some hQ
  obtain ⟨o4, e4, p4⟩ := obsO_some hB
  rw [e1] at e2 e3 e4
  injection e2 with e2
  injection e3 with e3
  injection e4 with e4
  subst e2
  subst e3
  subst e4
  refine ⟨o1, e1, p1, p4, p2, ?_⟩
  rw [p3, fold_values]
  have hpol : ∀ (l : List K), l.foldl (fun b x => if x ≤ 1 / 10 ^ 3 then true else b) true = true := by
    intro l
    induction l with
    | nil => rfl
    | cons x l ih =>
      rw [List.foldl_cons, ite_self]
      exact ih
  have hi : init (regUpd (fun b (x : K) => if x ≤ 1 / 10 ^ 3 then true else b) ["tol_stat".toList] [] true) o.polish = true := by
    unfold init
    rw [regUpd_miss (g := "tol_comp".toList) (by decide) (by decide),
        regUpd_miss (g := "tol_ineq".toList) (by decide) (by decide),
        regUpd_miss (g := "tol_eq".toList) (by decide) (by decide), regUpd_hit (by decide) (by decide) rfl, hD.1,
        ite_self]
  rw [hi]
  exact hpol _

/-- **C100 (DAQP).**  With fixed QP tolerances, DAQP is called with the inequality tolerance last set under either name; the
other tolerances are not used. -/
theorem C100_daqp_partial {o : Daqp K} {s0 s s1 : Nlp K} {h : List (Ev K)} {d : QpData K}
    (h0 : nlpDefault E (.daqp o) = .ok s0) (hr : run E h s0 = .ok s) (hf : Fixed h) (hu : qpUsed E d s = .ok s1) :
    ∃ o1, s1.x.qp = .daqp o1 ∧ o1.primalTol = last (both "tol_ineq") [] 0 (1 / 10 ^ 8) h := by
  have h1 := reg_run (gs := ["tol_ineq".toList]) (by decide)
    (obsD_set (E := E) (·.primalTol) (fun g v o o' h => daqpSet_regs h)) (obsD_called _) h0 hr hf hu
  simp only [obsD, Option.map_some, init] at h1
  rw [regUpd_miss (g := "tol_comp".toList) (by decide) (by decide),
    regUpd_hit (by decide) (by decide) rfl, fold_last] at h1
  obtain ⟨o1, e1, p1⟩ := obsD_some h1
  exact ⟨o1, e1, p1⟩

/-- **C100 (qpDUNES).**  With fixed QP tolerances, the options of qpDUNES hold a tenth of the last stationarity tolerance and
the last tolerances for equalities and inequalities. -/
theorem C100_qpdunes_partial {o : Qpdunes K} {s0 s s1 : Nlp K} {h : List (Ev K)} {d : QpData K}
    (h0 : nlpDefault E (.qpdunes o) = .ok s0) (hr : run E h s0 = .ok s) (hf : Fixed h) (hu : qpUsed E d s = .ok s1) :
    ∃ o1, s1.x.qp = .qpdunes o1 ∧ o1.stat = 1 / 10 * last (both "tol_stat") [] 0 (1 / 10 ^ 8) h ∧ o1.eq = last (both "tol_eq") [] 0 (1 / 10 ^ 8) h ∧ o1.act = last (both "tol_ineq") [] 0 (1 / 10 ^ 8) h := by
  have h1 := reg_run (gs := ["tol_stat".toList]) (by decide)
    (obsU_set (E := E) (·.stat) (fun g v o o' h => (qpdunesSet_regs h).1)) (obsU_called _) h0 hr hf hu
  simp only [obsU, Option.map_some, init] at h1
  rw [regUpd_miss (g := "tol_comp".toList) (by decide) (by decide),
    regUpd_miss (g := "tol_ineq".toList) (by decide) (by decide),
    regUpd_miss (g := "tol_eq".toList) (by decide) (by decide),
    regUpd_hit (by decide) (by decide) rfl, fold_fun (fun x => 1 / 10 * x) _ (0 : K) (0 : K)] at h1
  obtain ⟨o1, e1, p1⟩ := obsU_some h1
  have h2 := reg_run (gs := ["tol_eq".toList]) (by decide)
    (obsU_set (E := E) (·.eq) (fun g v o o' h => (qpdunesSet_regs h).2.1)) (obsU_called _) h0 hr hf hu
  simp only [obsU, Option.map_some, init] at h2
  rw [regUpd_miss (g := "tol_comp".toList) (by decide) (by decide),
    regUpd_miss (g := "tol_ineq".toList) (by decide) (by decide),
    regUpd_hit (by decide) (by decide) rfl, fold_last] at h2
  obtain ⟨o2, e2, p2⟩ := obsU_some h2
  have h3 := reg_run (gs := ["tol_ineq".toList]) (by decide)
    (obsU_set (E := E) (·.act) (fun g v o o' h => (qpdunesSet_regs h).2.2)) (obsU_called _) h0 hr hf hu
  simp only [obsU, Option.map_some, init] at h3
  rw [regUpd_miss (g := "tol_comp".toList) (by decide) (by decide),
    regUpd_hit (by decide) (by decide) rfl, fold_last] at h3
  obtain ⟨o3, e3, p3⟩ := obsU_some h3
  rw [e1] at e2 e3
  injection e2 with e2
  injection e3 with e3
  subst e2
  subst e3
  exact ⟨o1, e1, p1, p2, p3⟩

/-- **C100 (HPMPC).**  With fixed QP tolerances, HPMPC is called with the complementarity tolerance last set under either
name; the other tolerances are not used. -/
theorem C100_hpmpc_partial {o : Hpmpc K} {s0 s s1 : Nlp K} {h : List (Ev K)} {d : QpData K}
    (h0 : nlpDefault E (.hpmpc o) = .ok s0) (hr : run E h s0 = .ok s) (hf : Fixed h) (hu : qpUsed E d s = .ok s1) :
    ∃ o1, s1.x.qp = .hpmpc o1 ∧ o1.tol = last (both "tol_comp") [] 0 (1 / 10 ^ 8) h := by
  have h1 := reg_run (gs := ["tol_comp".toList]) (by decide)
    (obsM_set (E := E) (·.tol) (fun g v o o' h => hpmpcSet_regs h)) (obsM_called _) h0 hr hf hu
  simp only [obsM, Option.map_some, init] at h1
  rw [regUpd_hit (by decide) (by decide) rfl, fold_last] at h1
  obtain ⟨o1, e1, p1⟩ := obsM_some h1
  exact ⟨o1, e1, p1⟩

/-- **C100 (qpOASES).**  With fixed QP tolerances, qpOASES is called with the smallest of all tolerances ever set under any
name and `10⁻⁸`.  In particular the tolerance never exceeds `10⁻⁸`: no call can make it larger. -/
theorem C100_qpoases_partial [IsStrictOrderedRing K] {o : Qpoases K} {s0 s s1 : Nlp K} {h : List (Ev K)} {d : QpData K}
    (hD : IsDefault E (.qpoases o)) (h0 : nlpDefault E (.qpoases o) = .ok s0) (hr : run E h s0 = .ok s) (hf : Fixed h)
    (hu : qpUsed E d s = .ok s1) :
    ∃ o1, s1.x.qp = .qpoases o1 ∧ o1.tolerance = (values allTols h).foldl min (1 / 10 ^ 8) ∧
      o1.tolerance ≤ 1 / 10 ^ 8 := by
  have h1 := reg_run (gs := tolNames) (fun g hg => hg)
    (obsA_set (E := E) (·.tolerance) (fun g v o o' h => qpoasesSet_regs h)) (obsA_called _) h0 hr hf hu
  simp only [obsA, Option.map_some, init] at h1
  have hlt : (1 : K) / 10 ^ 8 ≤ 1 / 10 ^ 4 := by
    apply one_div_le_one_div_of_le <;> norm_num
  have hD' : o = ⟨1 / 10 ^ 4, true, false, 1000⟩ := hD
  rw [regUpd_hit (g := "tol_comp".toList) (by decide) (by decide) rfl,
    regUpd_hit (g := "tol_ineq".toList) (by decide) (by decide) rfl,
    regUpd_hit (g := "tol_eq".toList) (by decide) (by decide) rfl,
    regUpd_hit (g := "tol_stat".toList) (by decide) (by decide) rfl, fold_values, hD'] at h1
  simp only [min_eq_right hlt, min_self] at h1
  obtain ⟨o1, e1, p1⟩ := obsA_some h1
  have hmin : ∀ (l : List K) (a : K), l.foldl (fun a x => min a x) a ≤ a := by
    intro l
    induction l with
    | nil => intro a; exact le_refl _
    | cons x l ih => intro a; exact le_trans (ih _) (min_le_left _ _)
  exact ⟨o1, e1, p1, by rw [p1]; exact hmin _ _⟩

/-! ### Clarabel -/

/-- an observation of the options of Clarabel, with the flag that its solver has not been built -/
def obsC (p : Clarabel K → K) : Qp K → Option (Bool × K)
  | .clarabel o => some (o.firstRun, p o)
  | _ => none

/-- a register that is frozen once the flag is down -/
def frozen (upd : Name → Val K → K → K) (g : Name) (v : Val K) (a : Bool × K) : Bool × K :=
  if a.1 = false then a else (a.1, upd g v a.2)

omit [LinearOrder K] in
theorem clarabelSet_regs {g : Name} {v : Val K} {o o' : Clarabel K} (h : clarabelSet g v o = .ok o')
    (hf : o.firstRun = true) :
    o'.firstRun = true ∧ o'.tolGap = regUpd lastOp ["tol_stat".toList] [] 0 g v o.tolGap ∧
    o'.tolInfeas = regUpd lastOp ["tol_eq".toList, "tol_ineq".toList] [] 0 g v o.tolInfeas := by
  unfold clarabelSet at h
  rw [if_neg (by rw [hf]; decide)] at h
  rcases ite_cases h with ⟨h1, h⟩ | ⟨h1, h⟩
  · obtain ⟨x, hx, h⟩ := ok_bind h; injection h with h; subst h; subst h1
    exact ⟨hf, regMiss (by decide) (by decide), regMiss (by decide) (by decide)⟩
  rcases ite_cases h with ⟨h2, h⟩ | ⟨h2, h⟩
  · obtain ⟨x, hx, h⟩ := ok_bind h; injection h with h; subst h; subst h2
    exact ⟨hf, regMiss (by decide) (by decide), regMiss (by decide) (by decide)⟩
  rcases ite_cases h with ⟨h3, h⟩ | ⟨h3, h⟩
  · obtain ⟨x, hx, h⟩ := ok_bind h; injection h with h; subst h; subst h3
    exact ⟨hf, by rw [regUpd_hit (by decide) (by decide) (asDbl_ok hx)], regMiss (by decide) (by decide)⟩
  rcases ite_cases h with ⟨h4, h⟩ | ⟨h4, h⟩
  · obtain ⟨x, hx, h⟩ := ok_bind h; injection h with h; subst h; subst h4
    exact ⟨hf, regMiss (by decide) (by decide), by rw [regUpd_hit (by decide) (by decide) (asDbl_ok hx)]⟩
  rcases ite_cases h with ⟨h5, h⟩ | ⟨h5, h⟩
  · obtain ⟨x, hx, h⟩ := ok_bind h; injection h with h; subst h; subst h5
    exact ⟨hf, regMiss (by decide) (by decide), by rw [regUpd_hit (by decide) (by decide) (asDbl_ok hx)]⟩
  rcases ite_cases h with ⟨h6, h⟩ | ⟨h6, h⟩
  · injection h with h; subst h; subst h6
    exact ⟨hf, regMiss (by decide) (by decide), regMiss (by decide) (by decide)⟩
  rcases ite_cases h with ⟨h7, h⟩ | ⟨h7, h⟩
  · injection h with h; subst h; subst h7
    exact ⟨hf, regMiss (by decide) (by decide), regMiss (by decide) (by decide)⟩
  cases h

theorem isObsC (p : Clarabel K → K) {gs : List Name} {r : K} (hg : ∀ g ∈ gs, g ∈ tolNames)
    (hp : ∀ g v o o', clarabelSet g v o = .ok o' → o.firstRun = true →
      o'.firstRun = true ∧ p o' = regUpd lastOp gs [] r g v (p o))
    (hn : ∀ o : Clarabel K, p { o with firstRun := false } = p o) :
    IsObs E (obsC p) (frozen (regUpd lastOp gs [] r)) (fun a => (false, a.2)) := by
  refine ⟨?_, ?_, ?_, ?_⟩
  · intro g v q q' h
    rcases qpSet_kind h with ⟨o, o', rfl, rfl, h1⟩ | ⟨o, o', rfl, rfl, h1⟩ | ⟨o, o', rfl, rfl, h1⟩ |
      ⟨o, o', rfl, rfl, h1⟩ | ⟨o, o', rfl, rfl, h1⟩ | ⟨o, o', rfl, rfl, h1⟩ | ⟨o, o', rfl, rfl, h1⟩ | ⟨rfl, rfl⟩
    · rfl
    · rfl
    · show some (o'.firstRun, p o') = some (frozen _ g v (o.firstRun, p o))
      cases hfr : o.firstRun with
      | false =>
        unfold clarabelSet at h1
        rw [if_pos hfr] at h1
        injection h1 with h1
        subst h1
        rw [hfr]
        rfl
      | true =>
        obtain ⟨h2, h3⟩ := hp g v o o' h1 hfr
        rw [h2, h3]
        rfl
    all_goals rfl
  · intro v a
    unfold frozen
    rw [regUpd_miss (by decide) (fun h => absurd (hg _ h) (by decide))]
    exact ite_self _
  · intro v a
    unfold frozen
    rw [regUpd_miss (by decide) (fun h => absurd (hg _ h) (by decide))]
    exact ite_self _
  · intro q
    cases q with
    | clarabel o =>
      show some (false, p { o with firstRun := false }) = some (false, p o)
      rw [hn]
    | _ => rfl

omit [Field K] [LinearOrder K] in
theorem fold_frozen (upd : Name → Val K → K → K) : ∀ (h : List (Ev K)) (a : K),
    (h.foldl (evUpd (frozen upd) (fun a => (false, a.2))) (false, a)) = (false, a)
  | [], a => rfl
  | e :: h, a => by
    have he : evUpd (frozen upd) (fun a => (false, a.2)) (false, a) e = (false, a) := by
      cases e with
      | start => rfl
      | qp d => rfl
      | set f v =>
        rw [evUpd_set]
        split_ifs
        · unfold xUpd
          split_ifs <;> rfl
        · rfl
        · rfl
    rw [List.foldl_cons, he]
    exact fold_frozen upd h a

omit [Field K] [LinearOrder K] in
theorem fold_before (upd : Name → Val K → K → K) : ∀ (h : List (Ev K)) (a : K),
    (h.foldl (evUpd (frozen upd) (fun a => (false, a.2))) (true, a)).2 = (beforeSolve h).foldl (evUpd upd id) a
  | [], a => rfl
  | e :: h, a => by
    cases e with
    | start => exact fold_before upd h a
    | qp d =>
      rw [List.foldl_cons]
      have he : evUpd (frozen upd) (fun a => (false, a.2)) (true, a) (.qp d) = (false, a) := rfl
      rw [he, fold_frozen]
      rfl
    | set f v =>
      have he : evUpd (frozen upd) (fun a => (false, a.2)) (true, a) (.set f v) =
          (true, evUpd upd id a (.set f v)) := by
        rw [evUpd_set, evUpd_set]
        unfold xUpd
        split_ifs <;> rfl
      rw [List.foldl_cons, he, fold_before upd h]
      rfl

theorem clarabel_reg (p : Clarabel K → K) {gs : List Name} (hg : ∀ g ∈ gs, g ∈ tolNames)
    (hp : ∀ g v o o', clarabelSet g v o = .ok o' → o.firstRun = true →
      o'.firstRun = true ∧ p o' = regUpd lastOp gs [] (0 : K) g v (p o))
    (hn : ∀ o : Clarabel K, p { o with firstRun := false } = p o) {o : Clarabel K} {s0 s s1 : Nlp K}
    {h : List (Ev K)} {d : QpData K} (hD : IsDefault E (.clarabel o)) (h0 : nlpDefault E (.clarabel o) = .ok s0)
    (hr : run E h s0 = .ok s) (hf : Fixed h) (hu : qpUsed E d s = .ok s1) :
    ∃ o1, s1.x.qp = .clarabel o1 ∧
      p o1 = last (gs ++ gs.map qpName) [] 0 (init (regUpd lastOp gs [] (0 : K)) (p o)) (beforeSolve h) := by
  have ho := isObsC (E := E) p hg hp hn
  obtain ⟨hd, hst, -⟩ := default_obs ho h0
  obtain ⟨hrun, hst'⟩ := run_obs ho h hr hst hf
  have hq := (qpUsed_fixed ho hu hst').1
  rw [hrun, hd] at hq
  have hi : obsC p (.clarabel o) = some (true, p o) := by
    show some (o.firstRun, p o) = _
    rw [hD.1]
  rw [hi] at hq
  have hfz : ∀ g v a, frozen (regUpd lastOp gs [] (0 : K)) g v (true, a) = (true, regUpd lastOp gs [] (0 : K) g v a) :=
    fun g v a => rfl
  simp only [Option.map_some, hfz] at hq
  cases hx : s1.x.qp with
  | clarabel o1 =>
    rw [hx] at hq
    injection hq with hq
    refine ⟨o1, rfl, ?_⟩
    have h2 := congrArg Prod.snd hq
    rw [fold_before, fold_reg lastOp 0 hg (.inl rfl)] at h2
    exact h2.trans (fold_last _ _ _ _)
  | _ => rw [hx] at hq; cases hq

/-- **C100 (Clarabel).**  With fixed QP tolerances, Clarabel is called with the tolerances last set before the first QP was
solved: later calls have no effect.  The gap tolerance is the last stationarity tolerance, the feasibility tolerance
the last one set for equalities or inequalities, whichever came later. -/
theorem C100_clarabel_partial {o : Clarabel K} {s0 s s1 : Nlp K} {h : List (Ev K)} {d : QpData K}
    (hD : IsDefault E (.clarabel o)) (h0 : nlpDefault E (.clarabel o) = .ok s0) (hr : run E h s0 = .ok s)
    (hf : Fixed h) (hu : qpUsed E d s = .ok s1) :
    ∃ o1, s1.x.qp = .clarabel o1 ∧
      o1.tolGap = last (both "tol_stat") [] 0 (1 / 10 ^ 8) (beforeSolve h) ∧
      o1.tolInfeas = last feasTols [] 0 (1 / 10 ^ 8) (beforeSolve h) := by
  obtain ⟨o1, e1, p1⟩ := clarabel_reg (E := E) (·.tolGap) (gs := ["tol_stat".toList]) (by decide)
    (fun g v o o' h hf => ⟨(clarabelSet_regs h hf).1, (clarabelSet_regs h hf).2.1⟩) (fun _ => rfl) hD h0 hr hf hu
  obtain ⟨o2, e2, p2⟩ := clarabel_reg (E := E) (·.tolInfeas) (gs := ["tol_eq".toList, "tol_ineq".toList]) (by decide)
    (fun g v o o' h hf => ⟨(clarabelSet_regs h hf).1, (clarabelSet_regs h hf).2.2⟩) (fun _ => rfl) hD h0 hr hf hu
  rw [e1] at e2
  injection e2 with e2
  subst e2
  simp only [init] at p1 p2
  rw [regUpd_miss (g := "tol_comp".toList) (by decide) (by decide),
    regUpd_miss (g := "tol_ineq".toList) (by decide) (by decide),
    regUpd_miss (g := "tol_eq".toList) (by decide) (by decide), regUpd_hit (by decide) (by decide) rfl] at p1
  rw [regUpd_miss (g := "tol_comp".toList) (by decide) (by decide), regUpd_hit (by decide) (by decide) rfl] at p2
  exact ⟨o1, e1, p1, p2⟩

/-! ### The tolerances of the NLP -/

theorem setTols_same {t : Four K} {s s' : Nlp K} (h : setTols E t s = .ok s') : SameNlp s s' := by
  unfold setTols at h
  obtain ⟨s1, h1, h⟩ := ok_bind h
  obtain ⟨s2, h2, h⟩ := ok_bind h
  obtain ⟨s3, h3, h⟩ := ok_bind h
  exact (((direct_same h1).trans (direct_same h2)).trans (direct_same h3)).trans (direct_same h)

theorem coldFirst_same {d : QpData K} {s s' : Nlp K} (h : coldFirst E d s = .ok s') : SameNlp s s' := by
  unfold coldFirst at h
  rcases ite_cases h with ⟨-, h⟩ | ⟨-, h⟩
  · exact direct_same h
  · injection h with h
    subst h
    exact SameNlp.rfl

theorem qpUsed_same {d : QpData K} {s s' : Nlp K} (h : qpUsed E d s = .ok s') : SameNlp s s' := by
  obtain ⟨s1, hs1, h⟩ := ok_bind (show (coldFirst E d s).bind (adaptTols E d) = .ok s' from h)
  refine (coldFirst_same hs1).trans ?_
  unfold adaptTols at h
  rcases ite_cases h with ⟨-, h⟩ | ⟨-, h⟩
  · exact setTols_same h
  rcases ite_cases h with ⟨-, h⟩ | ⟨-, h⟩
  · exact setTols_same h
  injection h with h
  subst h
  exact SameNlp.rfl

theorem qpStep_same {d : QpData K} {s s' : Nlp K} (h : qpStep E d s = .ok s') : SameNlp s s' := by
  unfold qpStep at h
  obtain ⟨s1, hs1, h⟩ := ok_bind h
  have h1 : SameNlp s1 { s1 with x := ⟨false, qpCalled s1.x.qp⟩ } := ⟨rfl, rfl, rfl, rfl, rfl, rfl, rfl, rfl, rfl, rfl⟩
  rcases ite_cases h with ⟨-, h⟩ | ⟨-, h⟩
  · exact ((qpUsed_same hs1).trans h1).trans (direct_same h)
  · injection h with h
    subst h
    exact (qpUsed_same hs1).trans h1

theorem nlp_tol_run {p : Four K → K} {t : Name} (ht : t ∈ tolNames)
    (hp : ∀ f v (s s' : Nlp K), nlpField E f v s = .ok s' →
      (f = t ∧ v = .dbl (p s'.tol) ∨ f ≠ t ∧ p s'.tol = p s.tol)) : ∀ (h : List (Ev K)) {s s' : Nlp K},
    run E h s = .ok s' → p s'.tol = last [t] [] 0 (p s.tol) h
  | [], s, s', h => by
    have h1 : Except.ok s = (Except.ok s' : Except Err (Nlp K)) := h
    injection h1 with h1
    subst h1
    rfl
  | e :: es, s, s', h => by
    obtain ⟨s1, hs1, h⟩ := ok_bind (show (step E e s).bind (fun s => run E es s) = .ok s' from h)
    have h2 := nlp_tol_run ht hp es h
    rw [h2]
    show last [t] [] 0 (p s1.tol) es = last [t] [] 0 (after [t] [] 0 (p s.tol) e) es
    congr 1
    cases e with
    | start => rw [(direct_same (show s.direct E _ _ = .ok s1 from hs1)).tol]; rfl
    | qp d => rw [(qpStep_same hs1).tol]; rfl
    | set f v =>
      have hmiss : f ≠ t → after [t] [] 0 (p s.tol) (.set f v) = p s.tol := by
        intro hf
        have hf' : f ∉ [t] := by rwa [List.mem_singleton]
        unfold after
        cases v <;> simp only [if_neg hf', List.not_mem_nil, if_false]
      have hmod := tol_module ht
      rcases nlpSet_cases hs1 with ⟨m1, s2, hd, m2⟩ | ⟨m1, m2, rfl⟩ | ⟨m1, m2, m3⟩
      · have hne : f ≠ t := by
          rintro rfl
          rw [hmod] at m1
          exact absurd m1 (by decide)
        rw [hmiss hne, ← (direct_same hd).tol]
        rcases m2 with ⟨-, n, -, rfl⟩ | ⟨-, n, -, rfl⟩ | ⟨-, -, rfl⟩ <;> rfl
      · have hne : f ≠ t := by
          rintro rfl
          rw [hmod] at m2
          exact absurd m2 (by decide)
        rw [hmiss hne]
      · rcases hp f v s s1 m3 with ⟨ha, hb⟩ | ⟨ha, hb⟩
        · rw [hb, ha]
          unfold after
          simp only [List.mem_singleton, if_true]
        · rw [hb, hmiss ha]

/-- **C100 (NLP).**  Whatever the QP solver and the strategy for its tolerances, the tolerances the NLP solver itself uses
are those last set under the names of the NLP tolerances, `10⁻⁸` by default: neither the QP tolerances nor any solve
changes them. -/
theorem C100_nlp_tols {q : Qp K} {s0 s : Nlp K} {h : List (Ev K)} (h0 : nlpDefault E q = .ok s0)
    (hr : run E h s0 = .ok s) :
    s.tol = ⟨last ["tol_stat".toList] [] 0 (1 / 10 ^ 8) h, last ["tol_eq".toList] [] 0 (1 / 10 ^ 8) h,
      last ["tol_ineq".toList] [] 0 (1 / 10 ^ 8) h, last ["tol_comp".toList] [] 0 (1 / 10 ^ 8) h⟩ := by
  have hd : s0.tol = ⟨1 / 10 ^ 8, 1 / 10 ^ 8, 1 / 10 ^ 8, 1 / 10 ^ 8⟩ := by
    unfold nlpDefault at h0
    obtain ⟨s1, h1, h0⟩ := ok_bind h0
    obtain ⟨s2, h2, h0⟩ := ok_bind h0
    obtain ⟨s3, h3, h0⟩ := ok_bind h0
    exact ((((direct_same h1).trans (direct_same h2)).trans (direct_same h3)).trans (direct_same h0)).tol
  have e1 := nlp_tol_run (E := E) (p := (·.stat)) (t := "tol_stat".toList) (by decide)
    (fun f v s s' h => (nlpField_vals h).2.1) h hr
  have e2 := nlp_tol_run (E := E) (p := (·.eq)) (t := "tol_eq".toList) (by decide)
    (fun f v s s' h => (nlpField_vals h).2.2.1) h hr
  have e3 := nlp_tol_run (E := E) (p := (·.ineq)) (t := "tol_ineq".toList) (by decide)
    (fun f v s s' h => (nlpField_vals h).2.2.2.1) h hr
  have e4 := nlp_tol_run (E := E) (p := (·.comp)) (t := "tol_comp".toList) (by decide)
    (fun f v s s' h => (nlpField_vals h).2.2.2.2.1) h hr
  rw [hd] at e1 e2 e3 e4
  cases ht : s.tol with
  | mk a b c d =>
    rw [ht] at e1 e2 e3 e4
    simp only at e1 e2 e3 e4
    rw [e1, e2, e3, e4]

/-! ### Adaptive tolerances -/

/-- tolerances of HPIPM after one of them has been set -/
theorem hpipm_direct {g : Name} {v : Val K} {o : Hpipm K} {s s' : Nlp K} (h : s.direct E g v = .ok s')
    (hs : s.x.qp = .hpipm o) (hc : moduleOf g ≠ some "cond".toList)
    (hi : g ≠ "initialize_next_xcond_qp_from_qp_out".toList) :
    ∃ o', s'.x.qp = .hpipm o' ∧ hpipmSet E g v o = .ok o' := by
  unfold Nlp.direct at h
  obtain ⟨x, hx, rfl⟩ := ok_map h
  unfold xcondSet at hx
  rw [if_neg hc, if_neg hi] at hx
  obtain ⟨q, hq, rfl⟩ := ok_map hx
  rw [hs] at hq
  obtain ⟨o', ho, rfl⟩ := ok_map hq
  exact ⟨o', rfl, ho⟩

theorem hpipm_setTols {t : Four K} {o : Hpipm K} {s s' : Nlp K} (h : setTols E t s = .ok s') (hs : s.x.qp = .hpipm o) :
    ∃ o', s'.x.qp = .hpipm o' ∧ o'.resG = t.stat ∧ o'.resB = t.eq ∧ o'.resD = t.ineq ∧ o'.resM = t.comp := by
  unfold setTols at h
  obtain ⟨s1, h1, h⟩ := ok_bind h
  obtain ⟨s2, h2, h⟩ := ok_bind h
  obtain ⟨s3, h3, h⟩ := ok_bind h
  obtain ⟨o1, e1, c1⟩ := hpipm_direct h1 hs (by decide) (by decide)
  obtain ⟨o2, e2, c2⟩ := hpipm_direct h2 e1 (by decide) (by decide)
  obtain ⟨o3, e3, c3⟩ := hpipm_direct h3 e2 (by decide) (by decide)
  obtain ⟨o4, e4, c4⟩ := hpipm_direct h e3 (by decide) (by decide)
  refine ⟨o4, e4, ?_, ?_, ?_, ?_⟩
  · rw [(hpipmSet_regs c4).1, (hpipmSet_regs c3).1, (hpipmSet_regs c2).1, (hpipmSet_regs c1).1]
    unfold hpUpd
    rw [regUpd_miss (g := "tol_comp".toList) (by decide) (by decide),
      regUpd_miss (g := "tol_ineq".toList) (by decide) (by decide),
      regUpd_miss (g := "tol_eq".toList) (by decide) (by decide), regUpd_hit (by decide) (by decide) rfl]
  · rw [(hpipmSet_regs c4).2.1, (hpipmSet_regs c3).2.1, (hpipmSet_regs c2).2.1]
    unfold hpUpd
    rw [regUpd_miss (g := "tol_comp".toList) (by decide) (by decide),
      regUpd_miss (g := "tol_ineq".toList) (by decide) (by decide), regUpd_hit (by decide) (by decide) rfl]
  · rw [(hpipmSet_regs c4).2.2.1, (hpipmSet_regs c3).2.2.1]
    unfold hpUpd
    rw [regUpd_miss (g := "tol_comp".toList) (by decide) (by decide), regUpd_hit (by decide) (by decide) rfl]
  · rw [(hpipmSet_regs c4).2.2.2]
    unfold hpUpd
    rw [regUpd_hit (by decide) (by decide) rfl]

theorem hpipm_cold {d : QpData K} {o : Hpipm K} {s s' : Nlp K} (h : coldFirst E d s = .ok s') (hs : s.x.qp = .hpipm o) :
    ∃ o', s'.x.qp = .hpipm o' ∧ o' = { o with warm := if d.first && !s.warmFirst then 0 else o.warm } := by
  unfold coldFirst at h
  rcases ite_cases h with ⟨h1, h⟩ | ⟨h1, h⟩
  · obtain ⟨o', e, c⟩ := hpipm_direct h hs (by decide) (by decide)
    refine ⟨o', e, ?_⟩
    rw [if_pos h1]
    have hw : hpipmSet E "warm_start".toList (.int 0) o = .ok { o with warm := 0 } := by
      unfold hpipmSet
      rw [if_neg (by decide), if_neg (by decide), if_neg (by decide), if_neg (by decide), if_neg (by decide),
        if_neg (by decide), if_neg (by decide), if_neg (by decide), if_pos rfl]
      rfl
    rw [hw] at c
    injection c with c
    exact c.symm
  · injection h with h
    subst h
    refine ⟨o, hs, ?_⟩
    rw [if_neg h1]

/-- **C100 (adaptive tolerances).**  With an adaptive strategy HPIPM is called with exactly the tolerances the strategy
prescribes for the NLP tolerances and residuals, in whatever state its options were. -/
theorem C100_adaptive {d : QpData K} {o : Hpipm K} {s s1 : Nlp K} (hs : s.x.qp = .hpipm o)
    (hu : qpUsed E d s = .ok s1) :
    (s.strategy = 1 → ∃ o1, s1.x.qp = .hpipm o1 ∧
      (⟨o1.resG, o1.resB, o1.resD, o1.resM⟩ : Four K) =
        tolJoint ⟨s.reduction, s.safety, s.tol, s.tolMin⟩ d.res) ∧
    (s.strategy = 2 → ∃ o1, s1.x.qp = .hpipm o1 ∧
      (⟨o1.resG, o1.resB, o1.resD, o1.resM⟩ : Four K) =
        tolScaling ⟨s.reduction, s.safety, s.tol, s.tolMin⟩ d.objFac d.minScal) := by
  obtain ⟨s2, hs2, h⟩ := ok_bind (show (coldFirst E d s).bind (adaptTols E d) = .ok s1 from hu)
  obtain ⟨o2, e2, -⟩ := hpipm_cold hs2 hs
  have hsame := coldFirst_same hs2
  have ht : s2.tolOpts = ⟨s.reduction, s.safety, s.tol, s.tolMin⟩ := by
    unfold Nlp.tolOpts
    rw [hsame.reduction, hsame.safety, hsame.tol, hsame.tolMin]
  unfold adaptTols at h
  rw [hsame.strategy, ht] at h
  constructor
  · intro h1
    rw [if_pos h1] at h
    obtain ⟨o1, e1, a1, a2, a3, a4⟩ := hpipm_setTols h e2
    exact ⟨o1, e1, by rw [a1, a2, a3, a4]⟩
  · intro h1
    rw [if_neg (by rw [h1]; decide), if_pos h1] at h
    obtain ⟨o1, e1, a1, a2, a3, a4⟩ := hpipm_setTols h e2
    exact ⟨o1, e1, by rw [a1, a2, a3, a4]⟩

/-! ### Warm start and iteration limit -/

omit [LinearOrder K] in
theorem hpipmSet_ints {g : Name} {v : Val K} {o o' : Hpipm K} (h : hpipmSet E g v o = .ok o') :
    (g = "hpipm_mode".toList ∧ (∃ m, v = .str m ∧ o'.warm = E.modeWarm m) ∧ o'.iterMax = 50) ∨
    (g = "iter_max".toList ∧ v = .int o'.iterMax ∧ o'.warm = o.warm) ∨
    (g = "warm_start".toList ∧ v = .int o'.warm ∧ o'.iterMax = o.iterMax) ∨
    (g ≠ "hpipm_mode".toList ∧ g ≠ "iter_max".toList ∧ g ≠ "warm_start".toList ∧ o'.warm = o.warm ∧
      o'.iterMax = o.iterMax) := by
  unfold hpipmSet at h
  rcases ite_cases h with ⟨h1, h⟩ | ⟨h1, h⟩
  · obtain ⟨x, hx, hm⟩ := ok_bind h
    rcases ite_cases hm with ⟨hn, hm⟩ | ⟨hn, hm⟩
    · injection hm with hm; subst hm; exact .inl ⟨h1, ⟨x, asStr_ok hx, rfl⟩, rfl⟩
    · cases hm
  rcases ite_cases h with ⟨h2, h⟩ | ⟨h2, h⟩
  · obtain ⟨x, hx, h⟩ := ok_bind h; injection h with h; subst h; subst h2
    exact .inr (.inr (.inr ⟨by decide, by decide, by decide, rfl, rfl⟩))
  rcases ite_cases h with ⟨h3, h⟩ | ⟨h3, h⟩
  · obtain ⟨x, hx, h⟩ := ok_bind h; injection h with h; subst h; subst h3
    exact .inr (.inr (.inr ⟨by decide, by decide, by decide, rfl, rfl⟩))
  rcases ite_cases h with ⟨h4, h⟩ | ⟨h4, h⟩
  · obtain ⟨x, hx, h⟩ := ok_bind h; injection h with h; subst h; subst h4
    exact .inr (.inr (.inr ⟨by decide, by decide, by decide, rfl, rfl⟩))
  rcases ite_cases h with ⟨h5, h⟩ | ⟨h5, h⟩
  · obtain ⟨x, hx, h⟩ := ok_bind h; injection h with h; subst h; subst h5
    exact .inr (.inr (.inr ⟨by decide, by decide, by decide, rfl, rfl⟩))
  rcases ite_cases h with ⟨h6, h⟩ | ⟨h6, h⟩
  · obtain ⟨x, hx, h⟩ := ok_bind h; injection h with h; subst h; subst h6
    exact .inr (.inr (.inr ⟨by decide, by decide, by decide, rfl, rfl⟩))
  rcases ite_cases h with ⟨h7, h⟩ | ⟨h7, h⟩
  · obtain ⟨x, hx, h⟩ := ok_bind h; injection h with h; subst h; subst h7
    exact .inr (.inr (.inr ⟨by decide, by decide, by decide, rfl, rfl⟩))
  rcases ite_cases h with ⟨h8, h⟩ | ⟨h8, h⟩
  · obtain ⟨x, hx, h⟩ := ok_bind h; injection h with h; subst h; subst h8
    exact .inr (.inl ⟨rfl, asInt_ok hx, rfl⟩)
  rcases ite_cases h with ⟨h9, h⟩ | ⟨h9, h⟩
  · obtain ⟨x, hx, h⟩ := ok_bind h; injection h with h; subst h; subst h9
    exact .inr (.inr (.inl ⟨rfl, asInt_ok hx, rfl⟩))
  rcases ite_cases h with ⟨h10, h⟩ | ⟨h10, h⟩
  · injection h with h; subst h; exact .inr (.inr (.inr ⟨h1, h8, h9, rfl, rfl⟩))
  cases h

/-- HPIPM's options and the copies the NLP keeps of them agree -/
structure InSync (s : Nlp K) (w i : Int) : Prop where
  kind : ∃ o, s.x.qp = .hpipm o ∧ o.warm = w ∧ o.iterMax = i
  warm : s.qpWarm = w

theorem direct_tol_sync {g : Name} {v : Val K} {s s' : Nlp K} {w i : Int} (h : s.direct E g v = .ok s')
    (hg : g ∈ "print_level".toList :: passed) (hs : InSync s w i) : InSync s' w i := by
  obtain ⟨⟨o, e, c1, c2⟩, c3⟩ := hs
  have hm : moduleOf g ≠ some "cond".toList ∧ g ≠ "initialize_next_xcond_qp_from_qp_out".toList := by
    rcases List.mem_cons.mp hg with hg | hg
    · subst hg; decide
    · exact (passed_module hg).2.2
  obtain ⟨o', e', c⟩ := hpipm_direct h e hm.1 hm.2
  refine ⟨⟨o', e', ?_⟩, (direct_same h).qpWarm.trans c3⟩
  rcases hpipmSet_ints c with ⟨hh, -⟩ | ⟨hh, -⟩ | ⟨hh, -⟩ | ⟨-, -, -, h1, h2⟩
  · subst hh; exact absurd hg (by decide)
  · subst hh; exact absurd hg (by decide)
  · subst hh; exact absurd hg (by decide)
  · exact ⟨h1.trans c1, h2.trans c2⟩

theorem setTols_sync {t : Four K} {s s' : Nlp K} {w i : Int} (h : setTols E t s = .ok s') (hs : InSync s w i) :
    InSync s' w i := by
  unfold setTols at h
  obtain ⟨s1, h1, h⟩ := ok_bind h
  obtain ⟨s2, h2, h⟩ := ok_bind h
  obtain ⟨s3, h3, h⟩ := ok_bind h
  exact direct_tol_sync h (by decide) (direct_tol_sync h3 (by decide) (direct_tol_sync h2 (by decide)
    (direct_tol_sync h1 (by decide) hs)))

/-- the options at a call of HPIPM: warm start off for the first QP unless asked for -/
theorem qpUsed_sync {d : QpData K} {s s' : Nlp K} {w i : Int} (h : qpUsed E d s = .ok s') (hs : InSync s w i) :
    ∃ o, s'.x.qp = .hpipm o ∧ o.warm = (if d.first = true ∧ s.warmFirst = false then 0 else w) ∧ o.iterMax = i := by
  obtain ⟨s2, hs2, h⟩ := ok_bind (show (coldFirst E d s).bind (adaptTols E d) = .ok s' from h)
  obtain ⟨⟨o, e, c1, c2⟩, c3⟩ := hs
  obtain ⟨o2, e2, c4⟩ := hpipm_cold hs2 e
  have hw : o2.warm = (if d.first = true ∧ s.warmFirst = false then 0 else w) := by
    rw [c4, ← c1]
    simp only [Bool.and_eq_true, Bool.not_eq_true']
  have hi : o2.iterMax = i := by rw [c4, ← c2]
  have hset : ∀ t, setTols E t s2 = .ok s' →
      ∃ o, s'.x.qp = .hpipm o ∧ o.warm = (if d.first = true ∧ s.warmFirst = false then 0 else w) ∧ o.iterMax = i := by
    intro t ht
    have h3 : InSync { s2 with qpWarm := o2.warm } o2.warm i := ⟨⟨o2, e2, rfl, hi⟩, rfl⟩
    have h4 : setTols E t { s2 with qpWarm := o2.warm } = .ok { s' with qpWarm := o2.warm } := by
      unfold setTols Nlp.direct at ht ⊢
      obtain ⟨a1, g1, ht⟩ := ok_bind ht
      obtain ⟨y1, z1, rfl⟩ := ok_map g1
      obtain ⟨a2, g2, ht⟩ := ok_bind ht
      obtain ⟨y2, z2, rfl⟩ := ok_map g2
      obtain ⟨a3, g3, ht⟩ := ok_bind ht
      obtain ⟨y3, z3, rfl⟩ := ok_map g3
      obtain ⟨y4, z4, rfl⟩ := ok_map ht
      simp only [z1, Except.map, bind, Except.bind] at *
      simp only [z2, z3, z4]
    obtain ⟨⟨o5, e5, c5, c6⟩, -⟩ := setTols_sync h4 h3
    exact ⟨o5, e5, c5.trans hw, c6⟩
  unfold adaptTols at h
  rcases ite_cases h with ⟨-, h⟩ | ⟨-, h⟩
  · exact hset _ h
  rcases ite_cases h with ⟨-, h⟩ | ⟨-, h⟩
  · exact hset _ h
  injection h with h
  subst h
  exact ⟨o2, e2, hw, hi⟩

theorem step_sync {e : Ev K} {s s' : Nlp K} {w i : Int} (h : step E e s = .ok s') (hs : InSync s w i)
    (hm : ¬ IsMode e) : InSync s' (afterInt "qp_warm_start" w e) (afterInt "qp_iter_max" i e) := by
  cases e with
  | start => exact direct_tol_sync (show s.direct E _ _ = .ok s' from h) (by decide) hs
  | qp d =>
    have hd : qpStep E d s = .ok s' := h
    have hsame := qpStep_same hd
    show InSync s' w i
    unfold qpStep at hd
    obtain ⟨s1, hs1, hd⟩ := ok_bind hd
    obtain ⟨o, e, c1, c2⟩ := qpUsed_sync hs1 hs
    have hq : ({ s1 with x := ⟨false, qpCalled s1.x.qp⟩ } : Nlp K).x.qp = .hpipm o := by
      show qpCalled s1.x.qp = _
      rw [e]
      rfl
    rcases ite_cases hd with ⟨h1, hd⟩ | ⟨h1, hd⟩
    · obtain ⟨o', e', c⟩ := hpipm_direct hd hq (by decide) (by decide)
      rcases hpipmSet_ints c with ⟨hh, -⟩ | ⟨hh, -⟩ | ⟨-, hv, hit⟩ | ⟨-, -, hh, -⟩
      · exact absurd hh (by decide)
      · exact absurd hh (by decide)
      · injection hv with hv
        refine ⟨⟨o', e', ?_, hit.trans c2⟩, hsame.qpWarm.trans hs.warm⟩
        rw [← hv, (qpUsed_same hs1).qpWarm, hs.warm]
      · exact absurd rfl hh
    · injection hd with hd
      subst hd
      refine ⟨⟨o, hq, ?_, c2⟩, hsame.qpWarm.trans hs.warm⟩
      rw [c1, if_neg (fun hh => h1 hh.1)]
  | set f v =>
    have hnone : ∀ (n : String) (a : Int), f ≠ n.toList → afterInt n a (Ev.set f v) = a := by
      intro n a hf
      unfold afterInt
      cases v <;> simp only [if_neg hf]
    have hhit : ∀ (n : String) (a x : Int), f = n.toList → v = .int x → afterInt n a (Ev.set f v) = x := by
      intro n a x hf hv
      subst hv
      show (if f = n.toList then x else a) = x
      rw [if_pos hf]
    rcases nlpSet_cases (show nlpSet E f v s = .ok s' from h) with ⟨m1, s1, hd, m2⟩ | ⟨m1, m2, rfl⟩ | ⟨m1, m2, m3⟩
    · have hsp := qp_split m1
      obtain ⟨⟨o, e, c1, c2⟩, c3⟩ := hs
      have hkeep : moduleOf (restOf f) = some "cond".toList ∨ restOf f = "initialize_next_xcond_qp_from_qp_out".toList →
          s1.x.qp = s.x.qp := by
        intro hk
        unfold Nlp.direct at hd
        obtain ⟨x, hx, rfl⟩ := ok_map hd
        unfold xcondSet at hx
        rcases ite_cases hx with ⟨-, hx⟩ | ⟨hk1, hx⟩
        · rcases ite_cases hx with ⟨-, hx⟩ | ⟨-, hx⟩
          · injection hx with hx; subst hx; rfl
          · cases hx
        · have hk2 := hk.resolve_left hk1
          rw [if_pos hk2] at hx
          obtain ⟨n, -, hx⟩ := ok_bind hx
          injection hx with hx
          subst hx
          rfl
      have hcopy := (direct_same hd).qpWarm
      by_cases hk : moduleOf (restOf f) = some "cond".toList ∨
          restOf f = "initialize_next_xcond_qp_from_qp_out".toList
      · have hr1 : f ≠ "qp_iter_max".toList := by
          intro hh
          rw [hh] at hk
          exact absurd hk (by decide)
        have hr2 : f ≠ "qp_warm_start".toList := by
          intro hh
          rw [hh] at hk
          exact absurd hk (by decide)
        rcases m2 with ⟨ha, -⟩ | ⟨ha, -⟩ | ⟨-, -, rfl⟩
        · exact absurd ha hr1
        · exact absurd ha hr2
        · rw [hnone _ _ hr2, hnone _ _ hr1]
          exact ⟨⟨o, (hkeep hk).trans e, c1, c2⟩, hcopy.trans c3⟩
      · rw [not_or] at hk
        obtain ⟨o', e', c⟩ := hpipm_direct hd e hk.1 hk.2
        rcases hpipmSet_ints c with ⟨hh, -⟩ | ⟨hh, hv, hw⟩ | ⟨hh, hv, hw⟩ | ⟨-, hh1, hh2, hw, hit⟩
        · rw [hh] at hsp
          exact absurd ⟨v, by rw [hsp]; rfl⟩ hm
        · have hf : f = "qp_iter_max".toList := by rw [hsp, hh]; decide
          have hf2 : f ≠ "qp_warm_start".toList := by rw [hf]; decide
          rw [hnone _ _ hf2, hhit _ _ _ hf hv]
          rcases m2 with ⟨-, n, -, rfl⟩ | ⟨ha, -⟩ | ⟨ha, -⟩
          · exact ⟨⟨o', e', hw.trans c1, rfl⟩, hcopy.trans c3⟩
          · exact absurd ha hf2
          · exact absurd hf ha
        · have hf : f = "qp_warm_start".toList := by rw [hsp, hh]; decide
          have hf2 : f ≠ "qp_iter_max".toList := by rw [hf]; decide
          rw [hnone _ _ hf2, hhit _ _ _ hf hv]
          rcases m2 with ⟨ha, -⟩ | ⟨-, n, hn, rfl⟩ | ⟨-, ha, -⟩
          · exact absurd ha hf2
          · rw [hv] at hn
            injection hn with hn
            exact ⟨⟨o', e', rfl, hw.trans c2⟩, hn.symm⟩
          · exact absurd hf ha
        · have hr1 : f ≠ "qp_iter_max".toList := by
            intro hf
            rw [hf] at hh1
            exact absurd hh1 (by decide)
          have hr2 : f ≠ "qp_warm_start".toList := by
            intro hf
            rw [hf] at hh2
            exact absurd hh2 (by decide)
          rcases m2 with ⟨ha, -⟩ | ⟨ha, -⟩ | ⟨-, -, rfl⟩
          · exact absurd ha hr1
          · exact absurd ha hr2
          · rw [hnone _ _ hr2, hnone _ _ hr1]
            exact ⟨⟨o', e', hw.trans c1, hit.trans c2⟩, hcopy.trans c3⟩
    · have hr : ∀ n : String, moduleOf n.toList = some "qp".toList → f ≠ n.toList := by
        intro n hn hf
        rw [hf] at m1
        exact m1 hn
      rw [hnone _ _ (hr _ (by decide)), hnone _ _ (hr _ (by decide))]
      exact hs
    · have hr : ∀ n : String, moduleOf n.toList = some "qp".toList → f ≠ n.toList := by
        intro n hn hf
        rw [hf] at m1
        exact m1 hn
      rw [hnone _ _ (hr _ (by decide)), hnone _ _ (hr _ (by decide))]
      have hw := (nlpField_vals m3).2.2.2.2.2.1
      rcases nlpField_x m3 with ⟨hp, s1, hd, hx⟩ | ⟨hp, hx⟩
      · obtain ⟨⟨o, e, c1, c2⟩, c3⟩ := hs
        have hq : InSync { s1 with qpWarm := w } w i := ⟨⟨o, by show s1.x.qp = _; rw [hx]; exact e, c1, c2⟩, rfl⟩
        have hd' : ({ s1 with qpWarm := w } : Nlp K).direct E f v = .ok { s' with qpWarm := w } := by
          unfold Nlp.direct at hd ⊢
          obtain ⟨x, hx, rfl⟩ := ok_map hd
          simp only [hx, Except.map]
        obtain ⟨⟨o', e', d1, d2⟩, -⟩ := direct_tol_sync hd' (List.mem_cons_of_mem _ hp) hq
        exact ⟨⟨o', e', d1, d2⟩, hw.trans c3⟩
      · obtain ⟨⟨o, e, c1, c2⟩, c3⟩ := hs
        exact ⟨⟨o, by rw [hx]; exact e, c1, c2⟩, hw.trans c3⟩

theorem run_sync : ∀ (h : List (Ev K)) {s s' : Nlp K} {w i : Int}, run E h s = .ok s' → InSync s w i →
    (∀ e ∈ h, ¬ IsMode e) → InSync s' (lastInt "qp_warm_start" w h) (lastInt "qp_iter_max" i h)
  | [], s, s', w, i, h, hs, _ => by
    have h1 : Except.ok s = (Except.ok s' : Except Err (Nlp K)) := h
    injection h1 with h1
    subst h1
    exact hs
  | e :: es, s, s', w, i, h, hs, hm => by
    obtain ⟨s1, hs1, h⟩ := ok_bind (show (step E e s).bind (fun s => run E es s) = .ok s' from h)
    exact run_sync es h (step_sync hs1 hs (hm e List.mem_cons_self)) (fun e he => hm e (List.mem_cons_of_mem _ he))

theorem run_append : ∀ (h h' : List (Ev K)) {s s' : Nlp K}, run E (h ++ h') s = .ok s' →
    ∃ s1, run E h s = .ok s1 ∧ run E h' s1 = .ok s'
  | [], h', s, s', hr => ⟨s, rfl, hr⟩
  | e :: es, h', s, s', hr => by
    obtain ⟨s1, hs1, h⟩ := ok_bind (show (step E e s).bind (fun s => run E (es ++ h') s) = .ok s' from hr)
    obtain ⟨s2, h2, h3⟩ := run_append es h' h
    refine ⟨s2, ?_, h3⟩
    show (step E e s).bind (fun s => run E es s) = _
    rw [hs1]
    exact h2

/-- **C100 (warm start and iteration limit).**  Suppose modes of HPIPM are selected only before all other calls (and no mode
switches the warm start on).  Then, after any further history of calls and solves and for any strategy, HPIPM is called
with the iteration limit last set, 50 by default, and with the warm start last set, 0 by default, except that the first
QP of a solve is started cold unless the option for it says otherwise. -/
theorem C100_warm {o : Hpipm K} {s0 s s1 : Nlp K} {m h : List (Ev K)} {d : QpData K} (hE : ∀ x, E.modeWarm x = 0)
    (hD : IsDefault E (.hpipm o)) (h0 : nlpDefault E (.hpipm o) = .ok s0) (hm : ∀ e ∈ m, IsMode e)
    (hh : ∀ e ∈ h, ¬ IsMode e) (hr : run E (m ++ h) s0 = .ok s) (hu : qpUsed E d s = .ok s1) :
    ∃ o1, s1.x.qp = .hpipm o1 ∧ o1.iterMax = lastInt "qp_iter_max" 50 h ∧
      o1.warm = if d.first = true ∧ s.warmFirst = false then 0 else lastInt "qp_warm_start" 0 h := by
  have hs0 : InSync s0 0 50 := by
    obtain ⟨o0, rfl⟩ := hD
    unfold nlpDefault at h0
    exact setTols_sync (t := ⟨1 / 10 ^ 8, 1 / 10 ^ 8, 1 / 10 ^ 8, 1 / 10 ^ 8⟩) h0 ⟨⟨_, rfl, hE _, rfl⟩, rfl⟩
  obtain ⟨s2, hr1, hr2⟩ := run_append m h hr
  have hs2 : InSync s2 0 50 := by
    clear hr hr2 hu h0
    induction m generalizing s0 with
    | nil =>
      have h1 : Except.ok s0 = (Except.ok s2 : Except Err (Nlp K)) := hr1
      injection h1 with h1
      subst h1
      exact hs0
    | cons e es ih =>
      obtain ⟨s3, hs3, hr1⟩ := ok_bind (show (step E e s0).bind (fun s => run E es s) = .ok s2 from hr1)
      refine ih (fun e he => hm e (List.mem_cons_of_mem _ he)) ?_ hr1
      obtain ⟨v, rfl⟩ := hm e List.mem_cons_self
      have hmod : restOf "qp_hpipm_mode".toList = "hpipm_mode".toList := by decide
      rcases nlpSet_cases (show nlpSet E _ v s0 = .ok s3 from hs3) with ⟨-, s4, hd, m2⟩ | ⟨m1, -⟩ | ⟨m1, -⟩
      · rw [hmod] at hd
        obtain ⟨⟨o2, e2, -, -⟩, c3⟩ := hs0
        obtain ⟨o3, e3, c⟩ := hpipm_direct hd e2 (by decide) (by decide)
        rcases hpipmSet_ints c with ⟨-, ⟨x, -, hx⟩, hi⟩ | ⟨hh, -⟩ | ⟨hh, -⟩ | ⟨hh, -⟩
        · rcases m2 with ⟨ha, -⟩ | ⟨ha, -⟩ | ⟨-, -, rfl⟩
          · exact absurd ha (by decide)
          · exact absurd ha (by decide)
          · exact ⟨⟨o3, e3, by rw [hx, hE], hi⟩, (direct_same hd).qpWarm.trans c3⟩
        · exact absurd hh (by decide)
        · exact absurd hh (by decide)
        · exact absurd rfl hh
      · exact absurd m1 (by decide)
      · exact absurd m1 (by decide)
  obtain ⟨o1, e1, c1, c2⟩ := qpUsed_sync hu (run_sync h hr2 hs2 hh)
  exact ⟨o1, e1, c2, c1⟩

/-! ### The generated solver -/

omit [Field K] [LinearOrder K] in
theorem after_miss {names resets : List Name} {r a : K} {f : Name} {v : Val K} (h1 : f ∉ names) (h2 : f ∉ resets) :
    after names resets r a (.set f v) = a := by
  unfold after
  cases v <;> simp only [if_neg h1, if_neg h2]

omit [Field K] [LinearOrder K] in
theorem after_hit {names resets : List Name} {r a x : K} {f : Name} (h1 : f ∈ names) :
    after names resets r a (.set f (.dbl x)) = x := by
  show (if f ∈ names then x else _) = x
  rw [if_pos h1]

omit [Field K] [LinearOrder K] in
theorem after_reset {names resets : List Name} {r a : K} {f m : Name} (h2 : f ∈ resets) :
    after names resets r a (.set f (.str m)) = r := by
  show (if f ∈ resets then r else a) = r
  rw [if_pos h2]

omit [Field K] [LinearOrder K] in
theorem fold_opt_hit {names resets : List Name} {r a : K} {f : Name} {o : Option K} (h1 : f ∈ names) :
    (optSet f o).foldl (after names resets r) a = o.getD a := by
  cases o with
  | none => rfl
  | some x => exact after_hit h1

omit [Field K] [LinearOrder K] in
theorem fold_opt_miss {names resets : List Name} {r a : K} {f : Name} {o : Option K} (h1 : f ∉ names)
    (h2 : f ∉ resets) : (optSet f o).foldl (after names resets r) a = a := by
  cases o with
  | none => rfl
  | some x => exact after_miss (v := .dbl x) h1 h2

omit [Field K] [LinearOrder K] in
theorem fold_if_miss {names resets : List Name} {r a : K} {f : Name} {v : Val K} {p : Prop} [Decidable p]
    (h1 : f ∉ names) (h2 : f ∉ resets) :
    (if p then [Ev.set f v] else []).foldl (after names resets r) a = a := by
  split_ifs
  · exact after_miss h1 h2
  · rfl

omit [Field K] [LinearOrder K] in
theorem fold_solves {names resets : List Name} {r : K} : ∀ (h : List (Ev K)) (a : K), (∀ f v, Ev.set f v ∉ h) →
    h.foldl (after names resets r) a = a
  | [], a, _ => rfl
  | e :: h, a, hs => by
    have he : after names resets r a e = a := by
      cases e with
      | set f v => exact absurd List.mem_cons_self (hs f v)
      | start => rfl
      | qp d => rfl
    rw [List.foldl_cons, he]
    exact fold_solves h a (fun f v hm => hs f v (List.mem_cons_of_mem _ hm))

theorem last_gen_stat (D : Desc K) (r d : K) (hD : D.hpipm = true) {h : List (Ev K)} (hs : ∀ f v, Ev.set f v ∉ h) :
    last (both "tol_stat") modeName r d (generated D ++ h) = D.qpTol.stat.getD (if D.rti = true then r else D.nlpTol.stat) := by
  unfold last generated
  simp only [List.foldl_append]
  rw [fold_solves h _ hs, List.foldl_cons, List.foldl_nil, after_miss (f := "print_level".toList) (by decide) (by decide),
    fold_if_miss (f := "qp_warm_start".toList) (by decide) (by decide),
    fold_opt_miss (f := "qp_tol_comp".toList) (by decide) (by decide), fold_opt_miss (f := "qp_tol_ineq".toList) (by decide) (by decide), fold_opt_miss (f := "qp_tol_eq".toList) (by decide) (by decide), fold_opt_hit (f := "qp_tol_stat".toList) (by decide)]
  congr 1
  rw [List.foldl_cons, List.foldl_nil, after_miss (f := "qp_iter_max".toList) (by decide) (by decide), if_pos hD,
    List.foldl_cons, List.foldl_nil, after_reset (f := "qp_hpipm_mode".toList) (by decide),
    fold_if_miss (f := "tau_min".toList) (by decide) (by decide)]
  by_cases hr : D.rti = true
  · rw [if_pos hr, if_pos hr]
    rfl
  · rw [if_neg hr, if_neg hr]
    simp only [List.foldl_cons, List.foldl_nil]
    rw [after_miss (f := "nlp_qp_tol_strategy".toList) (by decide) (by decide),
      after_miss (f := "tol_comp".toList) (by decide) (by decide),
      after_miss (f := "tol_ineq".toList) (by decide) (by decide),
      after_miss (f := "tol_eq".toList) (by decide) (by decide),
      after_hit (f := "tol_stat".toList) (by decide)]

theorem last_gen_eq (D : Desc K) (r d : K) (hD : D.hpipm = true) {h : List (Ev K)} (hs : ∀ f v, Ev.set f v ∉ h) :
    last (both "tol_eq") modeName r d (generated D ++ h) = D.qpTol.eq.getD (if D.rti = true then r else D.nlpTol.eq) := by
  unfold last generated
  simp only [List.foldl_append]
  rw [fold_solves h _ hs, List.foldl_cons, List.foldl_nil, after_miss (f := "print_level".toList) (by decide) (by decide),
    fold_if_miss (f := "qp_warm_start".toList) (by decide) (by decide),
    fold_opt_miss (f := "qp_tol_comp".toList) (by decide) (by decide), fold_opt_miss (f := "qp_tol_ineq".toList) (by decide) (by decide), fold_opt_hit (f := "qp_tol_eq".toList) (by decide), fold_opt_miss (f := "qp_tol_stat".toList) (by decide) (by decide)]
  congr 1
  rw [List.foldl_cons, List.foldl_nil, after_miss (f := "qp_iter_max".toList) (by decide) (by decide), if_pos hD,
    List.foldl_cons, List.foldl_nil, after_reset (f := "qp_hpipm_mode".toList) (by decide),
    fold_if_miss (f := "tau_min".toList) (by decide) (by decide)]
  by_cases hr : D.rti = true
  · rw [if_pos hr, if_pos hr]
    rfl
  · rw [if_neg hr, if_neg hr]
    simp only [List.foldl_cons, List.foldl_nil]
    rw [after_miss (f := "nlp_qp_tol_strategy".toList) (by decide) (by decide),
      after_miss (f := "tol_comp".toList) (by decide) (by decide),
      after_miss (f := "tol_ineq".toList) (by decide) (by decide),
      after_hit (f := "tol_eq".toList) (by decide)]

theorem last_gen_ineq (D : Desc K) (r d : K) (hD : D.hpipm = true) {h : List (Ev K)} (hs : ∀ f v, Ev.set f v ∉ h) :
    last (both "tol_ineq") modeName r d (generated D ++ h) = D.qpTol.ineq.getD (if D.rti = true then r else D.nlpTol.ineq) := by
  unfold last generated
  simp only [List.foldl_append]
  rw [fold_solves h _ hs, List.foldl_cons, List.foldl_nil, after_miss (f := "print_level".toList) (by decide) (by decide),
    fold_if_miss (f := "qp_warm_start".toList) (by decide) (by decide),
    fold_opt_miss (f := "qp_tol_comp".toList) (by decide) (by decide), fold_opt_hit (f := "qp_tol_ineq".toList) (by decide), fold_opt_miss (f := "qp_tol_eq".toList) (by decide) (by decide), fold_opt_miss (f := "qp_tol_stat".toList) (by decide) (by decide)]
  congr 1
  rw [List.foldl_cons, List.foldl_nil, after_miss (f := "qp_iter_max".toList) (by decide) (by decide), if_pos hD,
    List.foldl_cons, List.foldl_nil, after_reset (f := "qp_hpipm_mode".toList) (by decide),
    fold_if_miss (f := "tau_min".toList) (by decide) (by decide)]
  by_cases hr : D.rti = true
  · rw [if_pos hr, if_pos hr]
    rfl
  · rw [if_neg hr, if_neg hr]
    simp only [List.foldl_cons, List.foldl_nil]
    rw [after_miss (f := "nlp_qp_tol_strategy".toList) (by decide) (by decide),
      after_miss (f := "tol_comp".toList) (by decide) (by decide),
      after_hit (f := "tol_ineq".toList) (by decide)]

theorem last_gen_comp (D : Desc K) (r d : K) (hD : D.hpipm = true) {h : List (Ev K)} (hs : ∀ f v, Ev.set f v ∉ h) :
    last (both "tol_comp") modeName r d (generated D ++ h) = D.qpTol.comp.getD (if D.rti = true then r else D.nlpTol.comp) := by
  unfold last generated
  simp only [List.foldl_append]
  rw [fold_solves h _ hs, List.foldl_cons, List.foldl_nil, after_miss (f := "print_level".toList) (by decide) (by decide),
    fold_if_miss (f := "qp_warm_start".toList) (by decide) (by decide),
    fold_opt_hit (f := "qp_tol_comp".toList) (by decide), fold_opt_miss (f := "qp_tol_ineq".toList) (by decide) (by decide), fold_opt_miss (f := "qp_tol_eq".toList) (by decide) (by decide), fold_opt_miss (f := "qp_tol_stat".toList) (by decide) (by decide)]
  congr 1
  rw [List.foldl_cons, List.foldl_nil, after_miss (f := "qp_iter_max".toList) (by decide) (by decide), if_pos hD,
    List.foldl_cons, List.foldl_nil, after_reset (f := "qp_hpipm_mode".toList) (by decide),
    fold_if_miss (f := "tau_min".toList) (by decide) (by decide)]
  by_cases hr : D.rti = true
  · rw [if_pos hr, if_pos hr]
    rfl
  · rw [if_neg hr, if_neg hr]
    simp only [List.foldl_cons, List.foldl_nil]
    rw [after_miss (f := "nlp_qp_tol_strategy".toList) (by decide) (by decide),
      after_hit (f := "tol_comp".toList) (by decide)]

/-- **C100 (generated solver).**  A generated solver with HPIPM and fixed QP tolerances calls it, in every QP of every solve,
with the QP tolerances of the description; where the description gives none, with its NLP tolerances - except for the
real-time iteration, where they are `10⁻⁶` for stationarity and `10⁻⁸` for the others, whatever the NLP tolerances and
the strategy in the description. -/
theorem C100_generated {o : Hpipm K} {s0 s s1 : Nlp K} {D : Desc K} {h : List (Ev K)} {d : QpData K}
    (hD : D.hpipm = true) (hst : D.rti = true ∨ D.strategy = 0) (h0 : nlpDefault E (.hpipm o) = .ok s0)
    (hs : ∀ f v, Ev.set f v ∉ h) (hr : run E (generated D ++ h) s0 = .ok s) (hu : qpUsed E d s = .ok s1) :
    ∃ o1, s1.x.qp = .hpipm o1 ∧
      o1.resG = D.qpTol.stat.getD (if D.rti = true then 1 / 10 ^ 6 else D.nlpTol.stat) ∧
      o1.resB = D.qpTol.eq.getD (if D.rti = true then 1 / 10 ^ 8 else D.nlpTol.eq) ∧
      o1.resD = D.qpTol.ineq.getD (if D.rti = true then 1 / 10 ^ 8 else D.nlpTol.ineq) ∧
      o1.resM = D.qpTol.comp.getD (if D.rti = true then 1 / 10 ^ 8 else D.nlpTol.comp) := by
  have hopt : ∀ {n : Name} {x : Option K} {v : Val K}, n ≠ "nlp_qp_tol_strategy".toList →
      Ev.set "nlp_qp_tol_strategy".toList v ∉ optSet n x := by
    intro n x v hn hm
    cases x with
    | none => cases hm
    | some x =>
      rw [optSet, List.mem_singleton] at hm
      injection hm with hm
      exact hn hm.symm
  have hif : ∀ {p : Prop} [Decidable p] {n : Name} {w v : Val K}, n ≠ "nlp_qp_tol_strategy".toList →
      Ev.set "nlp_qp_tol_strategy".toList v ∉ (if p then [Ev.set n w] else []) := by
    intro p _ n w v hn hm
    split_ifs at hm
    · rw [List.mem_singleton] at hm
      injection hm with hm
      exact hn hm.symm
    · cases hm
  have hone : ∀ {n : Name} {w v : Val K}, n ≠ "nlp_qp_tol_strategy".toList →
      Ev.set "nlp_qp_tol_strategy".toList v ≠ Ev.set n w := by
    intro n w v hn hm
    injection hm with hm
    exact hn hm.symm
  have hf : Fixed (generated D ++ h) := by
    intro v hv
    rcases List.mem_append.mp hv with hv | hv
    · unfold generated at hv
      simp only [List.mem_append] at hv
      rcases hv with ((((((((hv | hv) | hv) | hv) | hv) | hv) | hv) | hv) | hv) | hv
      · exact absurd hv (hif (by decide))
      · exact absurd hv (hif (by decide))
      · by_cases hr : D.rti = true
        · rw [if_pos hr] at hv
          cases hv
        · rw [if_neg hr] at hv
          have h2 := hst.resolve_left hr
          simp only [List.mem_cons, List.not_mem_nil, or_false] at hv
          rcases hv with hv | hv | hv | hv | hv
          · exact absurd hv (hone (by decide))
          · exact absurd hv (hone (by decide))
          · exact absurd hv (hone (by decide))
          · exact absurd hv (hone (by decide))
          · injection hv with _ hv
            rw [hv, h2]
      · exact absurd (List.mem_singleton.mp hv) (hone (by decide))
      · exact absurd hv (hopt (by decide))
      · exact absurd hv (hopt (by decide))
      · exact absurd hv (hopt (by decide))
      · exact absurd hv (hopt (by decide))
      · exact absurd hv (hif (by decide))
      · exact absurd (List.mem_singleton.mp hv) (hone (by decide))
    · exact absurd hv (hs _ _)
  obtain ⟨o1, e1, p1, p2, p3, p4⟩ := C100_hpipm h0 hr hf hu
  rw [last_gen_stat D _ _ hD hs] at p1
  rw [last_gen_eq D _ _ hD hs] at p2
  rw [last_gen_ineq D _ _ hD hs] at p3
  rw [last_gen_comp D _ _ hD hs] at p4
  exact ⟨o1, e1, p1, p2, p3, p4⟩

/-! ### QORE and OOQP -/

theorem plain_direct {g : Name} {v : Val K} {s s' : Nlp K} (h : s.direct E g v = .ok s') (hs : s.x.qp = .plain) :
    s'.x.qp = .plain := by
  unfold Nlp.direct at h
  obtain ⟨x, hx, rfl⟩ := ok_map h
  unfold xcondSet at hx
  rcases ite_cases hx with ⟨-, hx⟩ | ⟨-, hx⟩
  · rcases ite_cases hx with ⟨-, hx⟩ | ⟨-, hx⟩
    · injection hx with hx; subst hx; exact hs
    · cases hx
  rcases ite_cases hx with ⟨-, hx⟩ | ⟨-, hx⟩
  · obtain ⟨n, -, hx⟩ := ok_bind hx
    injection hx with hx; subst hx; exact hs
  obtain ⟨q, hq, rfl⟩ := ok_map hx
  rw [hs] at hq
  rcases ite_cases hq with ⟨-, hq⟩ | ⟨-, hq⟩
  · injection hq with hq; exact hq.symm
  · cases hq

theorem plain_setTols {t : Four K} {s s' : Nlp K} (h : setTols E t s = .ok s') (hs : s.x.qp = .plain) :
    s'.x.qp = .plain := by
  unfold setTols at h
  obtain ⟨s1, h1, h⟩ := ok_bind h
  obtain ⟨s2, h2, h⟩ := ok_bind h
  obtain ⟨s3, h3, h⟩ := ok_bind h
  exact plain_direct h (plain_direct h3 (plain_direct h2 (plain_direct h1 hs)))

theorem plain_step {e : Ev K} {s s' : Nlp K} (h : step E e s = .ok s') (hs : s.x.qp = .plain) : s'.x.qp = .plain := by
  cases e with
  | start => exact plain_direct (show s.direct E _ _ = .ok s' from h) hs
  | qp d =>
    have hd : qpStep E d s = .ok s' := h
    unfold qpStep at hd
    obtain ⟨s1, hs1, hd⟩ := ok_bind hd
    have h1 : s1.x.qp = .plain := by
      obtain ⟨s2, hs2, h⟩ := ok_bind (show (coldFirst E d s).bind (adaptTols E d) = .ok s1 from hs1)
      have h2 : s2.x.qp = .plain := by
        unfold coldFirst at hs2
        rcases ite_cases hs2 with ⟨-, hs2⟩ | ⟨-, hs2⟩
        · exact plain_direct hs2 hs
        · injection hs2 with hs2; subst hs2; exact hs
      unfold adaptTols at h
      rcases ite_cases h with ⟨-, h⟩ | ⟨-, h⟩
      · exact plain_setTols h h2
      rcases ite_cases h with ⟨-, h⟩ | ⟨-, h⟩
      · exact plain_setTols h h2
      injection h with h; subst h; exact h2
    have h2 : ({ s1 with x := ⟨false, qpCalled s1.x.qp⟩ } : Nlp K).x.qp = .plain := by
      show qpCalled s1.x.qp = _
      rw [h1]
      rfl
    rcases ite_cases hd with ⟨-, hd⟩ | ⟨-, hd⟩
    · exact plain_direct hd h2
    · injection hd with hd; subst hd; exact h2
  | set f v =>
    rcases nlpSet_cases (show nlpSet E f v s = .ok s' from h) with ⟨m1, s1, hd, m2⟩ | ⟨m1, m2, rfl⟩ | ⟨m1, m2, m3⟩
    · have := plain_direct hd hs
      rcases m2 with ⟨-, n, -, rfl⟩ | ⟨-, n, -, rfl⟩ | ⟨-, -, rfl⟩ <;> exact this
    · exact hs
    · rcases nlpField_x m3 with ⟨hp, s1, hd, hx⟩ | ⟨hp, hx⟩
      · exact plain_direct hd (by rw [hx]; exact hs)
      · rw [hx]; exact hs

theorem plain_iter {v : Val K} {s s' : Nlp K} (h : step E (.set "qp_iter_max".toList v) s = .ok s')
    (hs : s.x.qp = .plain) : False := by
  rcases nlpSet_cases (show nlpSet E _ v s = .ok s' from h) with ⟨-, s1, hd, -⟩ | ⟨m1, -⟩ | ⟨m1, -⟩
  · have hmod : restOf "qp_iter_max".toList = "iter_max".toList := by decide
    rw [hmod] at hd
    unfold Nlp.direct at hd
    obtain ⟨x, hx, -⟩ := ok_map hd
    unfold xcondSet at hx
    rw [if_neg (by decide), if_neg (by decide), hs] at hx
    obtain ⟨q, hq, -⟩ := ok_map hx
    rcases ite_cases (show (if "iter_max".toList ∈ plainFields then Except.ok Qp.plain else Except.error Err.exit) =
      Except.ok q from hq) with ⟨hq, -⟩ | ⟨-, hq⟩
    · exact absurd hq (by decide)
    · cases hq
  · exact absurd m1 (by decide)
  · exact absurd m1 (by decide)

end

/-! ## Counterexamples and concrete cases -/

/-- modules outside this model that accept everything and keep the warm start off -/
def E0 : Ext := ⟨fun _ => true, fun _ => 0, fun _ => true, fun _ _ => true, fun _ => true⟩

/-- default options of HPIPM -/
def hp0 : Hpipm ℚ := hpipmOverwrite ⟨0, 0, 0, 0, 0, 0, 0, 0⟩

/-- default options of OSQP -/
def os0 : Osqp ℚ := ⟨1 / 1000, 1 / 10000, 1 / 10000, true, false, 0, 4000, 1⟩

/-- default options of Clarabel -/
def cl0 : Clarabel ℚ := ⟨true, 1 / 10 ^ 8, 1 / 10 ^ 8, 200, 0⟩

/-- default options of qpOASES -/
def qo0 : Qpoases ℚ := ⟨1 / 10 ^ 4, true, false, 1000⟩

/-- default options of DAQP -/
def da0 : Daqp ℚ := ⟨1 / 10 ^ 6, 1000, 1, 0⟩

example : IsDefault E0 (.hpipm hp0) := ⟨⟨0, 0, 0, 0, 0, 0, 0, 0⟩, by decide +kernel⟩
example : IsDefault (K := ℚ) E0 (.osqp os0) := ⟨rfl, rfl, rfl⟩
example : IsDefault (K := ℚ) E0 (.clarabel cl0) := ⟨rfl, rfl⟩
example : IsDefault (K := ℚ) E0 (.qpoases qo0) := rfl
example : IsDefault (K := ℚ) E0 (.daqp da0) := rfl

/-- the QP options a history ends with; the outcome of a failing call otherwise -/
def ends (q : Qp ℚ) (h : List (Ev ℚ)) : Except Err (Qp ℚ) :=
  ((nlpDefault E0 q).bind fun s => run E0 h s).map (·.x.qp)

/-- the QP options a QP solve is called with after a history -/
def used (q : Qp ℚ) (h : List (Ev ℚ)) (d : QpData ℚ) : Except Err (Qp ℚ) :=
  ((nlpDefault E0 q).bind fun s => (run E0 h s).bind fun s => qpUsed E0 d s).map (·.x.qp)

/-- a tolerance call -/
def dbl (f : String) (x : ℚ) : Ev ℚ := .set f.toList (.dbl x)

/-- an integer call -/
def int (f : String) (n : Int) : Ev ℚ := .set f.toList (.int n)

/-- data of a first and of a later QP -/
def dFirst : QpData ℚ := ⟨true, ⟨1 / 10, 1 / 10, 1 / 10, 1 / 10⟩, 1, 1⟩

/-- a later QP -/
def dLater : QpData ℚ := ⟨false, ⟨1 / 10, 1 / 10, 1 / 10, 1 / 10⟩, 1, 1⟩

/-- equality of outcomes is decidable -/
instance {α : Type} [DecidableEq α] : DecidableEq (Except Err α)
  | .ok a, .ok b => if h : a = b then isTrue (by rw [h]) else isFalse (by intro h1; injection h1 with h1; exact h h1)
  | .error a, .error b =>
    if h : a = b then isTrue (by rw [h]) else isFalse (by intro h1; injection h1 with h1; exact h h1)
  | .ok _, .error _ => isFalse (by intro h; cases h)
  | .error _, .ok _ => isFalse (by intro h; cases h)

/-- the tolerance asked for, whatever came before: false for qpOASES, where a larger tolerance is ignored -/
theorem C100_qpoases_counterexample :
    ends (.qpoases qo0) [dbl "qp_tol_stat" (1 / 100), dbl "qp_tol_eq" (1 / 100), dbl "qp_tol_ineq" (1 / 100),
      dbl "qp_tol_comp" (1 / 100)] = ends (.qpoases qo0) [] ∧
    ends (.qpoases qo0) [] = .ok (.qpoases ⟨1 / 10 ^ 8, true, false, 1000⟩) := by
  decide +kernel

/-- OSQP: the tolerance for equalities is overwritten by the one for inequalities, the one for complementarity is
ignored, and the stationarity tolerance is not taken below `10⁻⁵` -/
theorem C100_osqp_counterexample :
    ends (.osqp os0) [dbl "tol_stat" (1 / 10 ^ 9), dbl "tol_eq" (1 / 10 ^ 9), dbl "tol_ineq" (1 / 10 ^ 2),
      dbl "tol_comp" (1 / 10 ^ 3)] =
      .ok (.osqp ⟨1 / 10 ^ 5, 1 / 10 ^ 5, 1 / 10 ^ 2, true, false, 0, 4000, 1⟩) := by
  decide +kernel

/-- OSQP: once a print level above 0 has been set the solver stays verbose -/
theorem C100_osqp_verbose_counterexample :
    ends (.osqp os0) [int "qp_print_level" 1, int "qp_print_level" 0] =
      .ok (.osqp ⟨1 / 10 ^ 5, 1 / 10 ^ 5, 1 / 10 ^ 8, true, true, 0, 4000, 1⟩) := by
  decide +kernel

/-- a print level of the QP solver is overwritten at the start of the next solve -/
theorem C100_print_counterexample :
    ends (.hpipm hp0) [int "qp_print_level" 1, .start] = ends (.hpipm hp0) [] ∧
    ends (.hpipm hp0) [int "qp_print_level" 1] ≠ ends (.hpipm hp0) [] := by
  decide +kernel

/-- non-vacuity of `C100_modes`: a known mode and an unknown one after a history -/
example : ends (.hpipm hp0) [dbl "qp_tol_stat" (1 / 10 ^ 3), .set "qp_hpipm_mode".toList (.str "ROBUST".toList)] =
      .ok (.hpipm hp0) ∧
    ends (.hpipm hp0) [dbl "qp_tol_stat" (1 / 10 ^ 3), .set "qp_hpipm_mode".toList (.str "FAST".toList)] =
      .error .exit := by
  decide +kernel

/-- selecting a mode of HPIPM after setting tolerances, iteration limit and warm start drops all of them; the copy of the
warm start the NLP keeps survives and is written back after the first QP of the next solve -/
theorem C100_mode_counterexample :
    ends (.hpipm hp0) [dbl "qp_tol_stat" (1 / 10 ^ 3), int "qp_iter_max" 7, int "qp_warm_start" 1,
      .set "qp_hpipm_mode".toList (.str "SPEED".toList)] = .ok (.hpipm hp0) ∧
    ends (.hpipm hp0) [dbl "qp_tol_stat" (1 / 10 ^ 3), int "qp_iter_max" 7, int "qp_warm_start" 1,
      .set "qp_hpipm_mode".toList (.str "SPEED".toList), .qp dFirst] = .ok (.hpipm { hp0 with warm := 1 }) := by
  decide +kernel

/-- a QP tolerance is overwritten by a later call for the NLP tolerance -/
theorem C100_order_counterexample :
    ends (.hpipm hp0) [dbl "qp_tol_stat" (1 / 10 ^ 9), dbl "tol_stat" (1 / 10 ^ 2)] =
      .ok (.hpipm { hp0 with resG := 1 / 10 ^ 2 }) := by
  decide +kernel

/-- Clarabel: options set after the first QP are ignored, even unknown ones -/
theorem C100_clarabel_counterexample :
    ends (.clarabel cl0) [.qp dFirst, dbl "qp_tol_stat" (1 / 10 ^ 2), int "qp_iter_max" 7, int "qp_no_such_option" 1] =
      .ok (.clarabel { cl0 with firstRun := false }) ∧
    ends (.clarabel cl0) [int "qp_no_such_option" 1] = .error .exit := by
  decide +kernel

/-- QORE and OOQP know no iteration limit, which every generated solver sets: it exits when its options are set -/
theorem C100_plain_counterexample {K : Type} [Field K] [LinearOrder K] {E : Ext} {s : Nlp K} (hs : s.x.qp = .plain)
    (D : Desc K) : ∃ e, run E (generated D) s = .error e := by
  by_contra hcon
  have hex : ∃ s', run E (generated D) s = .ok s' := by
    cases hr : run E (generated D) s with
    | ok s' => exact ⟨s', rfl⟩
    | error e => exact absurd ⟨e, hr⟩ hcon
  obtain ⟨s', hr⟩ := hex
  unfold generated at hr
  obtain ⟨s1, hr, -⟩ := run_append _ _ hr
  obtain ⟨s1, hr, -⟩ := run_append _ _ hr
  obtain ⟨s1, hr, -⟩ := run_append _ _ hr
  obtain ⟨s1, hr, -⟩ := run_append _ _ hr
  obtain ⟨s1, hr, -⟩ := run_append _ _ hr
  obtain ⟨s1, hr, -⟩ := run_append _ _ hr
  obtain ⟨s2, h1, h2⟩ := run_append _ _ hr
  have hkeep : ∀ (h : List (Ev K)) {s s' : Nlp K}, run E h s = .ok s' → s.x.qp = .plain → s'.x.qp = .plain := by
    intro h
    induction h with
    | nil =>
      intro s s' h hs
      have h1 : Except.ok s = (Except.ok s' : Except Err (Nlp K)) := h
      injection h1 with h1
      rw [← h1]
      exact hs
    | cons e es ih =>
      intro s s' h hs
      obtain ⟨s1, hs1, h⟩ := ok_bind (show (step E e s).bind (fun s => run E es s) = .ok s' from h)
      exact ih h (plain_step hs1 hs)
  have h3 := hkeep _ h1 hs
  obtain ⟨s3, hs3, -⟩ := ok_bind (show (step E _ s2).bind (fun s => run E [] s) = .ok s1 from h2)
  exact plain_iter hs3 h3

/-- qpOASES accepts a warm start of 0, 1 or 2 only -/
theorem C100_qpoases_warm_counterexample :
    ends (.qpoases qo0) [int "qp_warm_start" 3] = .error .exit ∧
    ends (.hpipm hp0) [int "qp_warm_start" 3] = .ok (.hpipm { hp0 with resG := 1 / 10 ^ 8, warm := 3 }) := by
  decide +kernel

/-- `tau_min` is an option of the NLP, but a call ends the program with every QP solver other than HPIPM -/
theorem C100_tau_counterexample :
    ends (.qpoases qo0) [dbl "tau_min" (1 / 10)] = .error .exit ∧
    ends (.osqp os0) [dbl "tau_min" (1 / 10)] = .error .exit ∧
    ends (.daqp da0) [dbl "tau_min" (1 / 10)] = .error .exit ∧
    ends (.plain) [dbl "tau_min" (1 / 10)] = .error .exit ∧
    ends (.hpipm hp0) [dbl "tau_min" (1 / 10)] = .ok (.hpipm { hp0 with resG := 1 / 10 ^ 8, mRelax := 1 / 10 }) := by
  decide +kernel

/-- an adaptive tolerance stays in force after going back to the fixed strategy -/
theorem C100_back_to_fixed_counterexample :
    ends (.hpipm hp0) [int "nlp_qp_tol_strategy" 1, .qp dLater, int "nlp_qp_tol_strategy" 0] ≠ ends (.hpipm hp0) [] := by
  decide +kernel

/-- with a warm start of the first QP asked for and nothing else set, qpOASES and OSQP are warm started in the first QP of
the first solve, but not from the second QP on (the option of the NLP is 0, theirs was on) -/
theorem C100_first_warm_counterexample :
    used (.qpoases qo0) [int "warm_start_first_qp" 1] dFirst = .ok (.qpoases ⟨1 / 10 ^ 8, true, false, 1000⟩) ∧
    used (.qpoases qo0) [int "warm_start_first_qp" 1, .qp dFirst] dLater =
      .ok (.qpoases ⟨1 / 10 ^ 8, false, false, 1000⟩) ∧
    used (.daqp da0) [int "warm_start_first_qp" 1] dFirst = .ok (.daqp ⟨1 / 10 ^ 8, 1000, 1, 0⟩) ∧
    used (.daqp da0) [int "warm_start_first_qp" 1, .qp dFirst] dLater = .ok (.daqp ⟨1 / 10 ^ 8, 1000, 0, 0⟩) := by
  decide +kernel

/-- a description with tolerances of `10⁻²` -/
def desc0 (rti : Bool) : Desc ℚ :=
  ⟨true, rti, "BALANCE".toList, 0, ⟨1 / 10 ^ 2, 1 / 10 ^ 2, 1 / 10 ^ 2, 1 / 10 ^ 2⟩, 0, 50, ⟨none, none, none, none⟩, 1, 0⟩

/-- the real-time iteration ignores the NLP tolerances of the description -/
theorem C100_rti_counterexample :
    ends (.hpipm hp0) (generated (desc0 true)) = .ok (.hpipm { hp0 with warm := 1 }) ∧
    ends (.hpipm hp0) (generated (desc0 false)) =
      .ok (.hpipm { hp0 with warm := 1, resG := 1 / 10 ^ 2, resB := 1 / 10 ^ 2, resD := 1 / 10 ^ 2, resM := 1 / 10 ^ 2 }) := by
  decide +kernel

/-- a history with calls and solves that meets the hypotheses of the theorems for HPIPM -/
def hist0 : List (Ev ℚ) :=
  generated (desc0 false) ++ [.start, .qp dFirst, .qp dLater, dbl "qp_tol_eq" (1 / 10 ^ 5), .start, .qp dFirst]

example : used (.hpipm hp0) hist0 dLater =
    .ok (.hpipm ⟨1 / 10 ^ 2, 1 / 10 ^ 5, 1 / 10 ^ 2, 1 / 10 ^ 2, 50, 1, 0, 0⟩) := by decide +kernel
example : Fixed hist0 := by
  intro v hv
  simp [hist0, generated, desc0, optSet, dbl] at hv
  exact hv
example : last (both "tol_eq") modeName (1 / 10 ^ 8) (1 / 10 ^ 8) hist0 = 1 / 10 ^ 5 := by decide +kernel
example : last (both "tol_stat") modeName (1 / 10 ^ 6) (1 / 10 ^ 8) hist0 = 1 / 10 ^ 2 := by decide +kernel
example : lastInt "qp_warm_start" 0 hist0 = 1 := by decide +kernel
example : used (.qpoases qo0) [dbl "tol_stat" (1 / 10 ^ 3), .qp dFirst, dbl "qp_tol_eq" (1 / 10 ^ 9)] dLater =
    .ok (.qpoases ⟨1 / 10 ^ 9, false, false, 1000⟩) := by decide +kernel
example : used (.hpipm hp0) [int "nlp_qp_tol_strategy" 1, dbl "qp_tol_stat" 5] dLater ≠
    used (.hpipm hp0) [dbl "qp_tol_stat" 5] dLater := by decide +kernel

end Acados.QpOpts
