import Verif.Model.Batch
import Mathlib.Data.List.Induction
import Mathlib.Tactic.SplitIfs
/-!
# Lemmas about batch solvers
-/
namespace Acados.Batch
open Acados.Flat
open Acados.Step (Interleaves exec seqSched)
variable {K R C : Type}

/-! ### Parallel loops -/

theorem exec_cons {S : Type} (f : S → S) (l : List (S → S)) (s : S) : exec (f :: l) s = exec l (f s) := rfl

/-- iterations on capsules of their own: every interleaving gives each capsule the calls of its iteration in order -/
theorem par_exec (ts : Nat → List ((Nat → C) → Nat → C)) (b : Nat → List (C → C))
    (ht : ∀ i, ts i = (b i).map fun a caps => Function.update caps i (a (caps i)))
    (sched : List ((Nat → C) → Nat → C)) (h : Interleaves ts sched) (caps : Nat → C) :
    exec sched caps = fun i => exec (b i) (caps i) := by
  induction h generalizing b caps with
  | done ts h0 =>
    funext i
    have : b i = [] := by
      have := ht i
      rw [h0 i] at this
      exact List.map_eq_nil_iff.1 this.symm
    rw [this]; rfl
  | step ts i a rest sched hi hr ih =>
    have e := ht i
    rw [hi] at e
    obtain ⟨a', l', e1, e2, e3⟩ := List.map_eq_cons_iff.1 e.symm
    rw [exec_cons, ih (fun j => if j = i then l' else b j) (fun j => by
      by_cases hj : j = i
      · subst hj; simp only [if_true]; exact e3.symm
      · simp only [if_neg hj]; exact ht j)]
    funext j
    by_cases hj : j = i
    · subst hj
      simp only [if_true]
      rw [e1, ← e2, exec_cons]
      simp only [Function.update_self]
    · simp only [if_neg hj]
      rw [← e2]
      simp only [Function.update_of_ne hj]

theorem loop_exec (n : Nat) (body : Nat → List (C → C)) (sched : List ((Nat → C) → Nat → C))
    (h : Interleaves (loop n body) sched) (caps : Nat → C) :
    exec sched caps = fun i => if i < n then exec (body i) (caps i) else caps i := by
  rw [par_exec (loop n body) (fun i => if i < n then body i else []) (fun i => by
    unfold loop
    by_cases hi : i < n
    · rw [if_pos hi, if_pos hi]
    · rw [if_neg hi, if_neg hi]; rfl) sched h caps]
  funext i
  by_cases hi : i < n
  · rw [if_pos hi, if_pos hi]
  · rw [if_neg hi, if_neg hi]; rfl

/-- writes of the values of one function: every order gives this function where something is written -/
theorem write_exec (g : Nat → K) (ts : Nat → List ((Nat → K) → Nat → K)) (l : Nat → List Nat)
    (ht : ∀ i, ts i = (l i).map fun q => write q (g q))
    (sched : List ((Nat → K) → Nat → K)) (h : Interleaves ts sched) (a : Nat → K) (q : Nat) :
    ((∃ i, q ∈ l i) → exec sched a q = g q) ∧ ((∀ i, q ∉ l i) → exec sched a q = a q) := by
  induction h generalizing l a with
  | done ts h0 =>
    refine ⟨fun ⟨i, hi⟩ => ?_, fun _ => rfl⟩
    have := ht i
    rw [h0 i] at this
    rw [List.map_eq_nil_iff.1 this.symm] at hi
    exact absurd hi (by simp)
  | step ts i act rest sched hi hr ih =>
    have e := ht i
    rw [hi] at e
    obtain ⟨q0, l', e1, e2, e3⟩ := List.map_eq_cons_iff.1 e.symm
    have hts : ∀ j, (fun j => if j = i then rest else ts j) j = ((fun j => if j = i then l' else l j) j).map fun q => write q (g q) := by
      intro j
      by_cases hj : j = i
      · subst hj; simp only [if_true]; exact e3.symm
      · simp only [if_neg hj]; exact ht j
    obtain ⟨i1, i2⟩ := ih (fun j => if j = i then l' else l j) hts (act a)
    rw [exec_cons]
    by_cases hq : ∃ j, q ∈ (fun j => if j = i then l' else l j) j
    · refine ⟨fun _ => i1 hq, fun hn => ?_⟩
      obtain ⟨j, hj⟩ := hq
      exfalso
      by_cases hji : j = i
      · subst hji
        simp only [if_true] at hj
        exact hn j (by rw [e1]; exact List.mem_cons_of_mem _ hj)
      · simp only [if_neg hji] at hj
        exact hn j hj
    · have hq' : ∀ j, q ∉ (fun j => if j = i then l' else l j) j := fun j hj => hq ⟨j, hj⟩
      rw [i2 hq', ← e2]
      by_cases h0 : q = q0
      · subst h0
        refine ⟨fun _ => by simp [write], fun hn => absurd (by rw [e1]; simp) (hn i)⟩
      · have e0 : write q0 (g q0) a q = a q := Function.update_of_ne h0 _ _
        rw [e0]
        refine ⟨fun ⟨j, hj⟩ => ?_, fun _ => rfl⟩
        exfalso
        by_cases hji : j = i
        · subst hji
          rw [e1] at hj
          rcases List.mem_cons.1 hj with h1 | h1
          · exact h0 h1
          · exact hq' j (by simp only [if_true]; exact h1)
        · exact hq' j (by simp only [if_neg hji]; exact hj)

/-- the array a batch getter returns -/
theorem getLoop_exec (n dim : Nat) (src : Nat → Nat → K) (sched : List ((Nat → K) → Nat → K))
    (h : Interleaves (getLoop n dim src) sched) (a : Nat → K) :
    (∀ i < n, ∀ j < dim, exec sched a (i * dim + j) = src i j) ∧ ∀ q, n * dim ≤ q → exec sched a q = a q := by
  have key := write_exec (fun q => src (q / dim) (q % dim)) (getLoop n dim src)
    (fun i => if i < n then (List.range dim).map fun j => i * dim + j else []) (fun i => by
      unfold getLoop
      by_cases hi : i < n
      · rw [if_pos hi, if_pos hi, List.map_map]
        apply List.map_congr_left
        intro j hj
        have hj := List.mem_range.1 hj
        have e1 : (i * dim + j) / dim = i := by
          rw [Nat.mul_comm, Nat.mul_add_div (by omega), Nat.div_eq_of_lt hj, Nat.add_zero]
        have e2 : (i * dim + j) % dim = j := by
          rw [Nat.mul_comm, Nat.mul_add_mod, Nat.mod_eq_of_lt hj]
        simp only [Function.comp, e1, e2]
      · rw [if_neg hi, if_neg hi]; rfl) sched h a
  refine ⟨fun i hi j hj => ?_, fun q hq => ?_⟩
  · rw [(key (i * dim + j)).1 ⟨i, by rw [if_pos hi]; exact List.mem_map.2 ⟨j, List.mem_range.2 hj, rfl⟩⟩]
    have e1 : (i * dim + j) / dim = i := by
      rw [Nat.mul_comm, Nat.mul_add_div (by omega), Nat.div_eq_of_lt hj, Nat.add_zero]
    have e2 : (i * dim + j) % dim = j := by
      rw [Nat.mul_comm, Nat.mul_add_mod, Nat.mod_eq_of_lt hj]
    simp only [e1, e2]
  · refine (key q).2 fun i hm => ?_
    by_cases hi : i < n
    · rw [if_pos hi] at hm
      obtain ⟨j, hj, e⟩ := List.mem_map.1 hm
      have hj := List.mem_range.1 hj
      have : (i + 1) * dim ≤ n * dim := Nat.mul_le_mul_right _ hi
      rw [Nat.add_mul, Nat.one_mul] at this
      omega
    · rw [if_neg hi] at hm; exact absurd hm (by simp)

/-! ### The Python object -/

/-- the object and the family of independent solvers agree -/
structure Agree (fresh : C) (o : Obj C) (a : Family C) : Prop where
  cur : a.cur = o.cur
  le : o.cur ≤ o.solvers.length
  len : o.status.length = o.solvers.length
  cap : ∀ i s, o.solvers[i]? = some s → s.cap = a.cap i
  new : ∀ i, o.solvers.length ≤ i → a.cap i = fresh

theorem grow_agree {fresh : C} {o : Obj C} {a : Family C} (h : Agree fresh o a) (n : Nat) :
    Agree fresh (grow fresh n o) { a with cur := n } ∧ n ≤ (grow fresh n o).solvers.length := by
  unfold grow
  by_cases hn : n ≤ o.cur
  · rw [if_pos hn]
    exact ⟨⟨rfl, hn.trans h.le, h.len, h.cap, h.new⟩, hn.trans h.le⟩
  · rw [if_neg hn]
    unfold createMissing
    by_cases hm : 0 < n - o.solvers.length
    · simp only [if_pos hm]
      refine ⟨⟨rfl, ?_, ?_, fun i s hs => ?_, fun i hi => ?_⟩, ?_⟩
      · simp only [List.length_append, List.length_replicate]; omega
      · simp only [List.length_append, List.length_replicate, h.len]
      · simp only at hs
        by_cases hi : i < o.solvers.length
        · rw [List.getElem?_append_left hi] at hs; exact h.cap i s hs
        · rw [List.getElem?_append_right (by omega)] at hs
          have hs := List.mem_replicate.1 (List.mem_of_getElem? hs)
          rw [hs.2]; exact (h.new i (by omega)).symm
      · simp only [List.length_append, List.length_replicate] at hi
        exact h.new i (by omega)
      · simp only [List.length_append, List.length_replicate]; omega
    · simp only [if_neg hm]
      exact ⟨⟨rfl, by simp only; omega, h.len, h.cap, h.new⟩, by omega⟩

theorem onAll_agree {fresh : C} {o : Obj C} {a : Family C} (h : Agree fresh o a) (n : Nat) (hn : n ≤ o.solvers.length)
    (f : Nat → C → C) : ∃ o', onAll n f o = .ok o' ∧
      Agree fresh o' { a with cap := fun i => if i < n then f i (a.cap i) else a.cap i } := by
  unfold onAll
  rw [if_neg (by omega)]
  refine ⟨_, rfl, h.cur, by simpa using h.le, by simpa using h.len, fun i s hs => ?_, fun i hi => ?_⟩
  · simp only [List.getElem?_mapIdx] at hs
    obtain ⟨s0, e0, e1⟩ := Option.map_eq_some_iff.1 hs
    simp only
    by_cases hi : i < n
    · rw [if_pos hi] at e1 ⊢; rw [← e1, ← h.cap i s0 e0]
    · rw [if_neg hi] at e1 ⊢; rw [← e1]; exact h.cap i s0 e0
  · simp only [List.length_mapIdx] at hi
    simp only
    rw [if_neg (by omega)]; exact h.new i hi

theorem shrink_agree {fresh : C} {o : Obj C} {a : Family C} (h : Agree fresh o a) (n : Option Nat) :
    (∃ m o', shrink n o = .ok (m, o') ∧ sizeOf a.cur n = some m ∧ Agree fresh o' { a with cur := m } ∧ m ≤ o'.solvers.length ∧
      o'.solvers = o.solvers ∧ o'.status = o.status) ∨
    (shrink n o = .raise ∧ sizeOf a.cur n = none) := by
  cases n with
  | none =>
    left
    exact ⟨o.cur, o, rfl, by simp only [sizeOf]; rw [h.cur], ⟨rfl, h.le, h.len, h.cap, h.new⟩, h.le, rfl, rfl⟩
  | some n =>
    simp only [shrink, sizeOf]
    rw [h.cur]
    by_cases hn : n ≤ o.cur
    · left
      rw [if_pos hn, if_pos hn]
      exact ⟨n, _, rfl, rfl, ⟨rfl, hn.trans h.le, h.len, h.cap, h.new⟩, hn.trans h.le, rfl, rfl⟩
    · right
      rw [if_neg hn, if_neg hn]; exact ⟨rfl, rfl⟩

theorem mapIdx_id {α : Type} (l : List α) (f : Nat → α → α) (h : ∀ i s, l[i]? = some s → f i s = s) : l.mapIdx f = l := by
  apply List.ext_getElem?
  intro i
  rw [List.getElem?_mapIdx]
  cases e : l[i]? with
  | none => rfl
  | some s => simp [h i s e]

theorem solve_ok {fresh : C} {o : Obj C} {a : Family C} (h : Agree fresh o a) (sv : C → C × Int) (n : Nat)
    (hn : n ≤ o.solvers.length) : ∃ o1, cSolve sv n o = .ok o1 ∧ o1.cur = o.cur ∧ o1.solvers.length = o.solvers.length ∧
      o1.status.length = o.status.length ∧
      (∀ i s, o.solvers[i]? = some s → o1.solvers[i]? = some (if i < n then { s with cap := (sv s.cap).1 } else s)) ∧
      (∀ i s t, o.solvers[i]? = some s → o.status[i]? = some t →
        o1.status[i]? = some (if i < n then (sv s.cap).2 else t)) := by
  unfold cSolve
  rw [if_neg (by rw [h.len]; omega)]
  refine ⟨_, rfl, rfl, by simp, by simp, fun i s hs => ?_, fun i s t hs ht => ?_⟩
  · simp only [List.getElem?_mapIdx, hs, Option.map_some]
  · simp only [List.getElem?_mapIdx, ht, Option.map_some, hs]

/-- one call: the object does what the family of solvers does, or raises an exception -/
theorem step_agree (sv : C → C × Int) {fresh : C} {o : Obj C} {a : Family C} (h : Agree fresh o a) (op : BOp C) :
    (∃ o' a', objStep sv fresh o op = .ok o' ∧ famStep sv a op = some a' ∧ Agree fresh o' a') ∨ objStep sv fresh o op = .raise := by
  cases op with
  | change n f =>
    left
    obtain ⟨h1, h2⟩ := grow_agree h n
    obtain ⟨o', e, h3⟩ := onAll_agree h1 n h2 f
    exact ⟨o', _, e, rfl, h3⟩
  | read n =>
    rcases shrink_agree h n with ⟨m, o1, e1, e2, h1, hm, -, -⟩ | ⟨e1, -⟩
    · left
      obtain ⟨o', e, h3⟩ := onAll_agree h1 m hm (fun _ c => c)
      refine ⟨o', { a with cur := m }, ?_, ?_, ?_⟩
      · simp only [objStep, e1, Res.bind]; exact e
      · simp only [famStep, e2, Option.map_some]
      · simpa using h3
    · right; simp only [objStep, e1, Res.bind]
  | solve n =>
    rcases shrink_agree h n with ⟨m, o1, e1, e2, h1, hm, es, et⟩ | ⟨e1, -⟩
    · left
      obtain ⟨o2, e3, hc, hl1, hl2, hs, ht⟩ := solve_ok h1 sv m hm
      refine ⟨copyStatus o2, _, by simp only [objStep, pySolve, e1, Res.bind, e3], by simp only [famStep, e2, Option.map_some]; rfl, ?_⟩
      · unfold copyStatus
        refine ⟨by simp only; rw [hc]; exact h1.cur, ?_, ?_, fun i s hs' => ?_, fun i hi => ?_⟩
        · simp only [List.length_mapIdx]; rw [hc, hl1]; exact h1.le
        · simp only [List.length_mapIdx]; rw [hl2, hl1, h1.len]
        · simp only [List.getElem?_mapIdx] at hs'
          obtain ⟨s2, e4, e5⟩ := Option.map_eq_some_iff.1 hs'
          have hi : i < o1.solvers.length := by
            rw [← hl1]
            exact (List.getElem?_eq_some_iff.1 e4).1
          obtain ⟨s1, e6⟩ : ∃ s1, o1.solvers[i]? = some s1 := ⟨_, List.getElem?_eq_getElem hi⟩
          have e7 := hs i s1 e6
          rw [e4] at e7
          simp only [Option.some.injEq] at e7
          have e8 : s.cap = s2.cap := by
            rw [← e5]
            cases o2.status[i]? <;> rfl
          have e9 : s1.cap = a.cap i := h1.cap i s1 e6
          simp only
          rw [e8, e7]
          by_cases hi : i < m
          · simp only [if_pos hi]; rw [e9]
          · simp only [if_neg hi]; exact e9
        · simp only [List.length_mapIdx] at hi
          rw [hl1] at hi
          simp only
          rw [if_neg (by omega)]
          exact h1.new i hi
    · right; simp only [objStep, pySolve, e1, Res.bind]
  | single i f =>
    simp only [objStep]
    by_cases hi : i < o.solvers.length
    · left
      rw [if_pos hi]
      refine ⟨_, _, rfl, rfl, h.cur, by simpa using h.le, by simpa using h.len, fun j s hs => ?_, fun j hj => ?_⟩
      · simp only [List.getElem?_mapIdx] at hs
        obtain ⟨s0, e0, e1⟩ := Option.map_eq_some_iff.1 hs
        by_cases hj : j = i
        · subst hj; simp only [if_true] at e1
          simp only [Function.update_self]; rw [← e1, ← h.cap j s0 e0]
        · rw [if_neg hj] at e1
          simp only; rw [Function.update_of_ne hj, ← e1]; exact h.cap j s0 e0
      · simp only [List.length_mapIdx] at hj
        simp only; rw [Function.update_of_ne (by omega)]; exact h.new j hj
    · right; rw [if_neg hi]
  | singleSolve i =>
    simp only [objStep]
    by_cases hi : i < o.solvers.length
    · left
      rw [if_pos hi]
      refine ⟨_, _, rfl, rfl, h.cur, by simpa using h.le, by simpa using h.len, fun j s hs => ?_, fun j hj => ?_⟩
      · simp only [List.getElem?_mapIdx] at hs
        obtain ⟨s0, e0, e1⟩ := Option.map_eq_some_iff.1 hs
        by_cases hj : j = i
        · subst hj; simp only [if_true] at e1
          simp only [Function.update_self]; rw [← e1, ← h.cap j s0 e0]
        · rw [if_neg hj] at e1
          simp only; rw [Function.update_of_ne hj, ← e1]; exact h.cap j s0 e0
      · simp only [List.length_mapIdx] at hj
        simp only; rw [Function.update_of_ne (by omega)]; exact h.new j hj
    · right; rw [if_neg hi]

theorem objRun_snoc (sv : C → C × Int) (fresh : C) (o : Obj C) (ops : List (BOp C)) (op : BOp C) :
    objRun sv fresh o (ops ++ [op]) = (objRun sv fresh o ops).bind fun o => objStep sv fresh o op := by
  unfold objRun; rw [List.foldl_append]; rfl

theorem famRun_snoc (sv : C → C × Int) (a : Family C) (ops : List (BOp C)) (op : BOp C) :
    famRun sv a (ops ++ [op]) = (famRun sv a ops).bind fun a => famStep sv a op := by
  unfold famRun; rw [List.foldl_append]; rfl

theorem run_agree (sv : C → C × Int) {fresh : C} {o : Obj C} {a : Family C} (h : Agree fresh o a) (ops : List (BOp C)) :
    (∃ o' a', objRun sv fresh o ops = .ok o' ∧ famRun sv a ops = some a' ∧ Agree fresh o' a') ∨ objRun sv fresh o ops = .raise := by
  induction ops using List.reverseRecOn with
  | nil => exact .inl ⟨o, a, rfl, rfl, h⟩
  | append_singleton ops op ih =>
    rw [objRun_snoc, famRun_snoc]
    rcases ih with ⟨o', a', e1, e2, h'⟩ | e
    · rw [e1, e2]
      exact step_agree sv h' op
    · right; rw [e]; rfl

/-! ### Status -/

/-- the status of every solver and of the record is the status of its last solve -/
structure AgreeS (o : Obj C) (a : Family C) : Prop where
  own : ∀ i s, o.solvers[i]? = some s → s.status = a.status i
  rec' : ∀ i t, o.status[i]? = some t → t = a.status i
  new : ∀ i, o.solvers.length ≤ i → a.status i = 0

theorem grow_agreeS {fresh : C} {o : Obj C} {a : Family C} (h : Agree fresh o a) (hs : AgreeS o a) (n : Nat) :
    AgreeS (grow fresh n o) { a with cur := n } := by
  unfold grow
  by_cases hn : n ≤ o.cur
  · rw [if_pos hn]; exact ⟨hs.own, hs.rec', hs.new⟩
  · rw [if_neg hn]
    unfold createMissing
    by_cases hm : 0 < n - o.solvers.length
    · simp only [if_pos hm]
      refine ⟨fun i s e => ?_, fun i t e => ?_, fun i hi => ?_⟩
      · simp only at e ⊢
        by_cases hi : i < o.solvers.length
        · rw [List.getElem?_append_left hi] at e; exact hs.own i s e
        · rw [List.getElem?_append_right (by omega)] at e
          have e := List.mem_replicate.1 (List.mem_of_getElem? e)
          rw [e.2]; exact (hs.new i (by omega)).symm
      · simp only at e ⊢
        by_cases hi : i < o.status.length
        · rw [List.getElem?_append_left hi] at e; exact hs.rec' i t e
        · rw [List.getElem?_append_right (by omega)] at e
          have e := List.mem_replicate.1 (List.mem_of_getElem? e)
          rw [e.2]; exact (hs.new i (by rw [← h.len]; omega)).symm
      · simp only [List.length_append, List.length_replicate] at hi
        exact hs.new i (by omega)
    · simp only [if_neg hm]; exact ⟨hs.own, hs.rec', hs.new⟩

theorem onAll_agreeS {o o' : Obj C} {a : Family C} (hs : AgreeS o a) (n : Nat) (f : Nat → C → C)
    (h : onAll n f o = .ok o') (cap : Nat → C) : AgreeS o' { a with cap := cap } := by
  unfold onAll at h
  split_ifs at h with h1
  simp only [Res.ok.injEq] at h
  rw [← h]
  refine ⟨fun i s e => ?_, hs.rec', fun i hi => hs.new i (by simpa using hi)⟩
  simp only [List.getElem?_mapIdx] at e
  obtain ⟨s0, e0, e1⟩ := Option.map_eq_some_iff.1 e
  rw [← e1]
  split_ifs
  · exact hs.own i s0 e0
  · exact hs.own i s0 e0

theorem step_agreeS (sv : C → C × Int) {fresh : C} {o o' : Obj C} {a a' : Family C} (h : Agree fresh o a) (hs : AgreeS o a)
    (op : BOp C) (hop : ∀ i, op ≠ .singleSolve i) (e1 : objStep sv fresh o op = .ok o') (e2 : famStep sv a op = some a') :
    AgreeS o' a' := by
  cases op with
  | change n f =>
    simp only [famStep, Option.some.injEq] at e2
    rw [← e2]
    exact onAll_agreeS (grow_agreeS h hs n) n f e1 _
  | read n =>
    rcases shrink_agree h n with ⟨m, o1, e3, e4, -, -, es, et⟩ | ⟨e3, -⟩
    · simp only [objStep, e3, Res.bind] at e1
      simp only [famStep, e4, Option.map_some, Option.some.injEq] at e2
      rw [← e2]
      have : AgreeS o1 { a with cur := m } := ⟨by rw [es]; exact hs.own, by rw [et]; exact hs.rec', by rw [es]; exact hs.new⟩
      exact onAll_agreeS this m _ e1 a.cap
    · simp only [objStep, e3, Res.bind] at e1; cases e1
  | solve n =>
    rcases shrink_agree h n with ⟨m, o1, e3, e4, h1, hm, es, et⟩ | ⟨e3, -⟩
    · obtain ⟨o2, e5, hc, hl1, hl2, hso, hst⟩ := solve_ok h1 sv m hm
      simp only [objStep, pySolve, e3, Res.bind, e5, Res.ok.injEq] at e1
      simp only [famStep, e4, Option.map_some, Option.some.injEq] at e2
      rw [← e1, ← e2]
      have key : ∀ i < o.solvers.length, o2.status[i]? = some (if i < m then (sv (a.cap i)).2 else a.status i) := by
        intro i hi
        obtain ⟨s, es'⟩ : ∃ s, o1.solvers[i]? = some s := ⟨_, List.getElem?_eq_getElem (by rw [es]; exact hi)⟩
        obtain ⟨t, et'⟩ : ∃ t, o1.status[i]? = some t := ⟨_, List.getElem?_eq_getElem (by rw [et, h.len]; exact hi)⟩
        rw [hst i s t es' et', h1.cap i s es']
        rw [et] at et'
        rw [hs.rec' i t et']
      refine ⟨fun i s e => ?_, fun i t e => ?_, fun i hi => ?_⟩
      · simp only [copyStatus, List.getElem?_mapIdx] at e
        obtain ⟨s2, e6, e7⟩ := Option.map_eq_some_iff.1 e
        have hi : i < o.solvers.length := by
          rw [← es, ← hl1]; exact (List.getElem?_eq_some_iff.1 e6).1
        rw [key i hi] at e7
        simp only at e7
        rw [← e7]
      · simp only [copyStatus] at e
        have hi : i < o.solvers.length := by
          have := (List.getElem?_eq_some_iff.1 e).1
          rw [hl2, et, h.len] at this; exact this
        rw [key i hi] at e
        simp only [Option.some.injEq] at e
        exact e.symm
      · simp only [copyStatus, List.length_mapIdx] at hi
        rw [hl1, es] at hi
        simp only
        rw [if_neg (by rw [es] at hm; omega)]
        exact hs.new i hi
    · simp only [objStep, pySolve, e3, Res.bind] at e1; cases e1
  | single i f =>
    simp only [objStep] at e1
    split_ifs at e1 with h1
    simp only [Res.ok.injEq] at e1
    simp only [famStep, Option.some.injEq] at e2
    rw [← e1, ← e2]
    refine ⟨fun j s e => ?_, hs.rec', fun j hj => hs.new j (by simpa using hj)⟩
    simp only [List.getElem?_mapIdx] at e
    obtain ⟨s0, e3, e4⟩ := Option.map_eq_some_iff.1 e
    rw [← e4]
    split_ifs
    · exact hs.own j s0 e3
    · exact hs.own j s0 e3
  | singleSolve i => exact absurd rfl (hop i)

theorem run_agreeS (sv : C → C × Int) {fresh : C} {o o' : Obj C} {a : Family C} (h : Agree fresh o a) (hs : AgreeS o a)
    (ops : List (BOp C)) (hop : ∀ op ∈ ops, ∀ i, op ≠ .singleSolve i) (e : objRun sv fresh o ops = .ok o') :
    ∃ a', famRun sv a ops = some a' ∧ Agree fresh o' a' ∧ AgreeS o' a' := by
  induction ops using List.reverseRecOn generalizing o' with
  | nil =>
    simp only [objRun, List.foldl_nil, Res.ok.injEq] at e
    exact ⟨a, rfl, e ▸ h, e ▸ hs⟩
  | append_singleton ops op ih =>
    rw [objRun_snoc] at e
    cases hr : objRun sv fresh o ops with
    | ok o1 =>
      rw [hr] at e
      simp only [Res.bind] at e
      obtain ⟨a1, e1, h1, hs1⟩ := ih (fun op ho => hop op (by simp [ho])) hr
      rcases step_agree sv h1 op with ⟨o2, a2, e2, e3, h2⟩ | e2
      · rw [e] at e2
        simp only [Res.ok.injEq] at e2
        subst e2
        exact ⟨a2, by rw [famRun_snoc, e1]; exact e3, h2, step_agreeS sv h1 hs1 op (hop op (by simp)) e e3⟩
      · rw [e] at e2; cases e2
    | raise => rw [hr] at e; cases e
    | ub => rw [hr] at e; cases e

end Acados.Batch
