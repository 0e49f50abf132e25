import Verif.Lemmas.GenSolver
import Mathlib.Data.List.GetD
import Mathlib.Data.List.Induction
import Mathlib.Tactic.SplitIfs
/-!
# Lemmas about the life of a generated solver
-/
namespace Acados.GenSolver
variable {K : Type}

/-! ### Buffers on the heap -/

theorem malloc_step {α : Type} (n m : Nat) (v : Nat → α) :
    mallocFill n (m + 1) v = (match mallocFill n m v with
      | none => none
      | some b => if m < n then some (b.set m (some (v m))) else none) := by
  unfold mallocFill
  rw [List.range_succ, List.foldl_append]
  rfl

theorem malloc_ok {α : Type} (n m : Nat) (v : Nat → α) (h : m ≤ n) :
    ∃ b, mallocFill n m v = some b ∧ b.length = n ∧
      ∀ i, b.getD i none = if i < m then some (v i) else none := by
  induction m with
  | zero =>
    refine ⟨List.replicate n none, rfl, by simp, fun i => ?_⟩
    rw [if_neg (by omega)]
    by_cases hi : i < n
    · rw [List.getD_eq_getElem _ _ (by simpa using hi)]; simp
    · rw [List.getD_eq_default _ _ (by simp; omega)]
  | succ m ih =>
    obtain ⟨b, e, hl, hb⟩ := ih (by omega)
    refine ⟨b.set m (some (v m)), ?_, by simpa using hl, fun i => ?_⟩
    · rw [malloc_step, e]; simp only; rw [if_pos (by omega)]
    · by_cases hi : i = m
      · subst hi
        rw [if_pos (by omega), List.getD_eq_getElem _ _ (by simp; omega)]
        simp
      · have e2 : (b.set m (some (v m))).getD i none = b.getD i none := by
          simp only [List.getD_eq_getElem?_getD]
          rw [List.getElem?_set_ne (by omega)]
        rw [e2, hb]
        by_cases h1 : i < m
        · rw [if_pos h1, if_pos (by omega)]
        · rw [if_neg h1, if_neg (by omega)]

theorem malloc_over {α : Type} (n m : Nat) (v : Nat → α) (h : n < m) : mallocFill n m v = none := by
  induction m with
  | zero => omega
  | succ m ih =>
    rw [malloc_step]
    by_cases h1 : n < m
    · rw [ih h1]
    · cases mallocFill n m v with
      | none => rfl
      | some b => simp only; rw [if_neg (by omega)]

/-! ### Loops over an array -/

theorem readLoop_succ (n : Nat) (b : List (Option K)) (put : Nat → K → In K → In K) (s : In K) :
    readLoop (n + 1) b put s = (readLoop n b put s).bind (fun s =>
      match b.getD n none with
      | some v => .ok (put n v s)
      | none => .ub) := by
  unfold readLoop
  rw [List.range_succ, List.foldl_append]
  rfl

theorem readLoop_ok (n : Nat) (b : List (Option K)) (v : Nat → K) (put : Nat → K → In K → In K) (s : In K)
    (h : ∀ i < n, b.getD i none = some (v i)) :
    readLoop n b put s = .ok ((List.range n).foldl (fun (s : In K) i => put i (v i) s) s) := by
  induction n with
  | zero => rfl
  | succ n ih =>
    rw [readLoop_succ, ih (fun i hi => h i (by omega))]
    simp only [Res.bind]
    rw [h n (by omega), List.range_succ, List.foldl_append]
    rfl

theorem readLoop_ub (n : Nat) (b : List (Option K)) (put : Nat → K → In K → In K) (s : In K) (m : Nat) (hm : m < n)
    (h : ∀ i < m, ∃ v, b.getD i none = some v) (hb : b.getD m none = none) :
    readLoop n b put s = .ub := by
  induction n with
  | zero => omega
  | succ n ih =>
    rw [readLoop_succ]
    by_cases h1 : m < n
    · rw [ih h1]; rfl
    · have e : n = m := by omega
      subst e
      have hv : ∀ i, ∃ v : K, i < n → b.getD i none = some v := by
        intro i
        by_cases hi : i < n
        · obtain ⟨v, hv⟩ := h i hi; exact ⟨v, fun _ => hv⟩
        · exact ⟨(Classical.choice ⟨s.ts 0⟩ : K), fun h => absurd h hi⟩
      choose v hv using hv
      rw [readLoop_ok n b v put s (fun i hi => hv i hi)]
      simp only [Res.bind]
      rw [hb]

theorem fold_ts (n : Nat) (v : Nat → K) (s : In K) :
    (List.range n).foldl (fun (s : In K) i => putTs i (v i) s) s
      = { s with ts := fun j => if j < n then v j else s.ts j } := by
  induction n with
  | zero => rfl
  | succ n ih =>
    rw [List.range_succ, List.foldl_append, ih]
    simp only [List.foldl_cons, List.foldl_nil, putTs, In.mk.injEq, and_true]
    funext j
    by_cases h : j = n
    · subst h; rw [Function.update_self, if_pos (by omega)]
    · rw [Function.update_of_ne h]
      by_cases h1 : j < n
      · rw [if_pos h1, if_pos (by omega)]
      · rw [if_neg h1, if_neg (by omega)]

theorem fold_scaling (n : Nat) (v : Nat → K) (s : In K) :
    (List.range n).foldl (fun (s : In K) i => putScaling i (v i) s) s
      = { s with scaling := fun j => if j < n then v j else s.scaling j } := by
  induction n with
  | zero => rfl
  | succ n ih =>
    rw [List.range_succ, List.foldl_append, ih]
    simp only [List.foldl_cons, List.foldl_nil, putScaling, In.mk.injEq, true_and, and_true]
    funext j
    by_cases h : j = n
    · subst h; rw [Function.update_self, if_pos (by omega)]
    · rw [Function.update_of_ne h]
      by_cases h1 : j < n
      · rw [if_pos h1, if_pos (by omega)]
      · rw [if_neg h1, if_neg (by omega)]

theorem setSteps_eq (n : Nat) (v : Nat → K) (s : In K) :
    setSteps n v s = { s with ts := fun j => if j < n then v j else s.ts j,
                              scaling := fun j => if j < n then v j else s.scaling j } := by
  unfold setSteps
  induction n with
  | zero => rfl
  | succ n ih =>
    rw [List.range_succ, List.foldl_append, ih]
    simp only [List.foldl_cons, List.foldl_nil, In.mk.injEq, true_and, and_true]
    constructor <;>
    · funext j
      by_cases h : j = n
      · subst h; rw [Function.update_self, if_pos (by omega)]
      · rw [Function.update_of_ne h]
        by_cases h1 : j < n
        · rw [if_pos h1, if_pos (by omega)]
        · rw [if_neg h1, if_neg (by omega)]

/-! ### Time steps of the description -/

section
variable [DecidableEq K]

theorem descSteps_ok (d : Desc K) (s : In K) :
    descSteps d d.N s = .ok { s with ts := fun j => if j < d.N then d.timeSteps j else s.ts j } := by
  unfold descSteps
  by_cases h0 : d.N = 0
  · rw [if_pos h0]; simp [h0]
  · rw [if_neg h0]
    by_cases ha : (List.range d.N).all (fun j => decide (d.timeSteps j = d.timeSteps 0)) = true
    · rw [if_pos ha, fold_ts d.N (fun _ => d.timeSteps 0)]
      have ha := List.all_eq_true.1 ha
      congr 2
      funext j
      by_cases hj : j < d.N
      · rw [if_pos hj, if_pos hj]
        exact (of_decide_eq_true (ha j (List.mem_range.2 hj))).symm
      · rw [if_neg hj, if_neg hj]
    · rw [if_neg ha]
      obtain ⟨b, e, -, hb⟩ := malloc_ok d.N d.N d.timeSteps (le_refl _)
      rw [e]
      simp only
      rw [readLoop_ok d.N b d.timeSteps putTs s (fun i hi => by rw [hb, if_pos hi]), fold_ts]

omit [DecidableEq K] in
theorem descScaling_ok (d : Desc K) (s : In K) :
    descScaling d d.N s = .ok { s with scaling := fun j => if j < d.N + 1 then d.costScaling j else s.scaling j } := by
  unfold descScaling
  obtain ⟨b, e, -, hb⟩ := malloc_ok (d.N + 1) (d.N + 1) d.costScaling (le_refl _)
  rw [e]
  simp only
  rw [readLoop_ok _ b d.costScaling putScaling s (fun i hi => by rw [hb, if_pos hi]), fold_scaling]

/-- the code that sets the time steps either succeeds or has undefined behaviour -/
theorem descSteps_cases (d : Desc K) (N : Nat) (s : In K) : (∃ s', descSteps d N s = .ok s') ∨ descSteps d N s = .ub := by
  unfold descSteps
  by_cases h0 : d.N = 0
  · rw [if_pos h0]; exact .inl ⟨_, rfl⟩
  rw [if_neg h0]
  by_cases ha : (List.range d.N).all (fun j => decide (d.timeSteps j = d.timeSteps 0)) = true
  · rw [if_pos ha]; exact .inl ⟨_, rfl⟩
  rw [if_neg ha]
  by_cases hn : d.N ≤ N
  · obtain ⟨b, e, -, hb⟩ := malloc_ok N d.N d.timeSteps hn
    rw [e]
    simp only
    rcases Nat.eq_or_lt_of_le hn with h | h
    · left
      refine ⟨_, readLoop_ok N b d.timeSteps putTs s (fun i hi => by rw [hb, if_pos (by omega)])⟩
    · right
      exact readLoop_ub N b putTs s d.N h (fun i hi => ⟨_, by rw [hb, if_pos hi]⟩) (by rw [hb, if_neg (by omega)])
  · rw [malloc_over N d.N _ (by omega)]; exact .inr rfl

omit [DecidableEq K] in
/-- with another number of stages than at code generation, the buffer of the cost scaling is too short or not filled -/
theorem descScaling_ub (d : Desc K) (N : Nat) (h : N ≠ d.N) (s : In K) : descScaling d N s = .ub := by
  unfold descScaling
  by_cases h1 : N < d.N
  · rw [malloc_over _ _ _ (by omega)]
  · obtain ⟨b, e, -, hb⟩ := malloc_ok (N + 1) (d.N + 1) d.costScaling (by omega)
    rw [e]
    simp only
    exact readLoop_ub (N + 1) b putScaling s (d.N + 1) (by omega) (fun i hi => ⟨_, by rw [hb, if_pos hi]⟩)
      (by rw [hb, if_neg (by omega)])

theorem steps_ub (d : Desc K) (N : Nat) (h : N ≠ d.N) (s : In K) : steps d N N none s = .ub := by
  show (descSteps d N s).bind (descScaling d N) = .ub
  rcases descSteps_cases d N s with ⟨s', e⟩ | e
  · rw [e]; exact descScaling_ub d N h s'
  · rw [e]; rfl

theorem steps_none (d : Desc K) (s : In K) :
    steps d d.N d.N none s = .ok { s with ts := fun j => if j < d.N then d.timeSteps j else s.ts j,
                                          scaling := fun j => if j < d.N + 1 then d.costScaling j else s.scaling j } := by
  show (descSteps d d.N s).bind (descScaling d d.N) = _
  rw [descSteps_ok]
  exact descScaling_ok d _

theorem steps_some (d : Desc K) (hd : 0 < d.N) (N : Nat) (ts : Nat → K) (s : In K) :
    steps d N N (some ts) s = .ok { s with ts := fun j => if j < N then ts j else s.ts j,
                                           scaling := fun j => if j < N then ts j else s.scaling j } := by
  simp only [steps, updateSteps]
  rw [if_neg (by omega), if_neg (by simp), setSteps_eq]

/-- the data after the value part -/
theorem setup_none [Zero K] (d : Desc K) (s : In K) :
    setup d d.N d.N none s = .ok { s with
      ts := fun j => if j < d.N then d.timeSteps j else s.ts j,
      scaling := fun j => if j < d.N + 1 then d.costScaling j else s.scaling j,
      fld := (blocks d d.N).foldl runBlock s.fld } := by
  unfold setup
  rw [if_neg (by simp), steps_none]
  rfl

theorem setup_some [Zero K] (d : Desc K) (hd : 0 < d.N) (N : Nat) (ts : Nat → K) (s : In K) :
    setup d N N (some ts) s = .ok { s with
      ts := fun j => if j < N then ts j else s.ts j,
      scaling := fun j => if j < N then ts j else s.scaling j,
      fld := (blocks d N).foldl runBlock s.fld } := by
  unfold setup
  rw [if_neg (by simp), steps_some d hd]
  rfl

theorem setup_ub [Zero K] (d : Desc K) (N : Nat) (h : N ≠ d.N) (s : In K) : setup d N N none s = .ub := by
  unfold setup
  rw [if_neg (by simp), steps_ub d N h]
  rfl

end

/-! ### Parameters -/

theorem params_fold (d : Desc K) (n : Nat) (s : In K) :
    (List.range n).foldl (fun (r : Res (In K)) i => r.bind (updateParams d i d.p d.np)) (.ok s)
      = .ok { s with p := fun i j => if i < n ∧ j < d.np then d.p j else s.p i j } := by
  induction n with
  | zero => simp
  | succ n ih =>
    rw [List.range_succ, List.foldl_append, ih]
    simp only [List.foldl_cons, List.foldl_nil, Res.bind, updateParams]
    rw [if_neg (by simp)]
    congr 2
    funext i j
    by_cases h : i = n
    · subst h
      rw [Function.update_self]
      by_cases hj : j < d.np
      · rw [if_pos hj, if_pos ⟨by omega, hj⟩]
      · rw [if_neg hj, if_neg (fun h => hj h.2), if_neg (fun h => hj h.2)]
    · rw [Function.update_of_ne h]
      by_cases h1 : i < n ∧ j < d.np
      · rw [if_pos h1, if_pos ⟨by omega, h1.2⟩]
      · rw [if_neg h1, if_neg (fun h2 => h1 ⟨by omega, h2.2⟩)]

/-- the default parameters are stored at every stage -/
theorem defaultParams_ok (d : Desc K) (N : Nat) (s : In K) :
    defaultParams d N s = .ok { s with
      p := fun i j => if i < N + 1 ∧ j < d.np then d.p j else s.p i j,
      globalData := if 0 < d.npGlobal ∧ 0 < d.nGlobalData then d.pre ((List.range d.npGlobal).map d.pGlobal) else s.globalData } := by
  unfold defaultParams
  have e1 : (if 0 < d.np then (List.range (N + 1)).foldl
      (fun (r : Res (In K)) i => r.bind (updateParams d i d.p d.np)) (.ok s) else .ok s)
      = .ok { s with p := fun i j => if i < N + 1 ∧ j < d.np then d.p j else s.p i j } := by
    by_cases h : 0 < d.np
    · rw [if_pos h, params_fold]
    · rw [if_neg h]
      have : ∀ j, ¬ j < d.np := fun j => by omega
      simp [this]
  simp only [e1]
  by_cases hg : 0 < d.npGlobal
  · rw [if_pos hg]
    simp only [Res.bind, setPGlobal, List.length_map, List.length_range]
    by_cases hd : 0 < d.nGlobalData
    · rw [if_pos hd, if_neg (by simp), if_pos ⟨hg, hd⟩]
    · rw [if_neg hd, if_neg (fun h => hd h.2)]
  · rw [if_neg hg, if_neg (fun h => hg h.1)]

/-! ### The iterate -/

theorem setNlpOut_N [Zero K] (d : Desc K) (N : Nat) (i j : Nat) (hi : i ≤ N) (hj : j < d.nx) :
    (setNlpOut d N zeroIter).x i j
      = if d.nbx .init = d.nx ∧ 0 < d.N then d.vec .init .lbx j else 0 := by
  unfold setNlpOut
  simp only
  generalize hx : (if d.nbx .init = d.nx ∧ 0 < d.N then (fun j => if j < d.nx then d.vec .init .lbx j else 0)
    else (fun _ => 0) : Nat → K) = x0
  have e0 : x0 j = if d.nbx .init = d.nx ∧ 0 < d.N then d.vec .init .lbx j else 0 := by
    rw [← hx]; split
    · simp only; rw [if_pos hj]
    · rfl
  have key : ∀ (n : Nat) (o : Iter K) (i : Nat), i < n → ((List.range n).foldl (fun (o : Iter K) i =>
      { o with x := setRow d.nx x0 i o.x, u := setRow d.nu (fun _ => 0) i o.u }) o).x i j = x0 j := by
    intro n
    induction n with
    | zero => intro o i h; omega
    | succ n ih =>
      intro o i h
      rw [List.range_succ, List.foldl_append]
      simp only [List.foldl_cons, List.foldl_nil]
      by_cases h1 : i = n
      · subst h1; simp [setRow, hj]
      · unfold setRow; rw [Function.update_of_ne h1]; exact ih o i (by omega)
  rw [← e0]
  by_cases h1 : i = N
  · subst h1; simp [setRow, hj]
  · unfold setRow; rw [Function.update_of_ne h1]; exact key N _ i (by omega)

theorem rows_fold [Zero K] (n nx : Nat) (v : Nat → K) (o : Iter K) (i j : Nat) (hi : i < n) (hj : j < nx) :
    ((List.range n).foldl (fun (o : Iter K) i => { o with x := setRow nx v i o.x }) o).x i j = v j := by
  induction n with
  | zero => omega
  | succ n ih =>
    rw [List.range_succ, List.foldl_append]
    simp only [List.foldl_cons, List.foldl_nil]
    by_cases h1 : i = n
    · subst h1; simp [setRow, hj]
    · unfold setRow; rw [Function.update_of_ne h1]; exact ih (by omega)

/-- creation with the time steps of the description -/
theorem create_none [Zero K] [One K] [DecidableEq K] (d : Desc K) :
    create d d.N none = .ok ⟨d.N, { (freshIn : In K) with
      ts := fun j => if j < d.N then d.timeSteps j else 0,
      scaling := fun j => if j < d.N + 1 then d.costScaling j else 1,
      fld := (blocks d d.N).foldl runBlock (fun _ _ => none),
      p := fun i j => if i < d.N + 1 ∧ j < d.np then d.p j else 0,
      globalData := if 0 < d.npGlobal ∧ 0 < d.nGlobalData then d.pre ((List.range d.npGlobal).map d.pGlobal) else [] },
      setNlpOut d d.N zeroIter⟩ := by
  unfold create
  rw [if_neg (by simp), setup_none]
  simp only [Res.bind]
  rw [defaultParams_ok]
  rfl

theorem create_some [Zero K] [One K] [DecidableEq K] (d : Desc K) (hd : 0 < d.N) (N : Nat) (ts : Nat → K) :
    create d N (some ts) = .ok ⟨N, { (freshIn : In K) with
      ts := fun j => if j < N then ts j else 0,
      scaling := fun j => if j < N then ts j else 1,
      fld := (blocks d N).foldl runBlock (fun _ _ => none),
      p := fun i j => if i < N + 1 ∧ j < d.np then d.p j else 0,
      globalData := if 0 < d.npGlobal ∧ 0 < d.nGlobalData then d.pre ((List.range d.npGlobal).map d.pGlobal) else [] },
      setNlpOut d N zeroIter⟩ := by
  unfold create
  rw [if_neg (by simp), setup_some d hd]
  simp only [Res.bind]
  rw [defaultParams_ok]
  rfl

/-- the iterate after a reset -/
def resetIter [Zero K] (d : Desc K) (x0bar : Bool) (N : Nat) (s : In K) : Iter K :=
  if x0bar && d.hasX0 then
    (List.range (N + 1)).foldl (fun (o : Iter K) i => { o with x := setRow d.nx (x0Buffer s) i o.x }) zeroIter
  else zeroIter

theorem reset_num [Zero K] [DecidableEq K] (d : Desc K) (x0 : Bool) (c : Capsule K) (hc : c.N = d.N) :
    ∃ s, reset d true x0 c = .ok ⟨d.N, s, resetIter d x0 d.N s⟩ ∧ s = { c.inp with
      ts := fun j => if j < d.N then d.timeSteps j else c.inp.ts j,
      scaling := fun j => if j < d.N + 1 then d.costScaling j else c.inp.scaling j,
      fld := (blocks d d.N).foldl runBlock c.inp.fld,
      p := fun i j => if i < d.N + 1 ∧ j < d.np then d.p j else c.inp.p i j,
      globalData := if 0 < d.npGlobal ∧ 0 < d.nGlobalData then d.pre ((List.range d.npGlobal).map d.pGlobal) else c.inp.globalData } := by
  refine ⟨_, ?_, rfl⟩
  obtain ⟨cN, ci, co⟩ := c
  simp only at hc
  subst hc
  unfold reset
  simp only [if_true, defaultParams_ok, Res.bind]
  rw [setup_none]
  rfl

theorem reset_soft [Zero K] [DecidableEq K] (d : Desc K) (x0 : Bool) (c : Capsule K) :
    reset d false x0 c = .ok ⟨c.N, c.inp, resetIter d x0 c.N c.inp⟩ := rfl

theorem reset_ub [Zero K] [DecidableEq K] (d : Desc K) (x0 : Bool) (c : Capsule K) (hc : c.N ≠ d.N) :
    reset d true x0 c = .ub := by
  unfold reset
  simp only [if_true, defaultParams_ok, Res.bind]
  rw [setup_ub d c.N hc]

/-! ### Histories -/

theorem bind_ok {α β : Type} (r : Res α) (f : α → Res β) (b : β) (h : r.bind f = .ok b) : ∃ a, r = .ok a ∧ f a = .ok b := by
  cases r with
  | ok a => exact ⟨a, rfl, h⟩
  | refused => cases h
  | exit => cases h
  | ub => cases h

/-- no call changes the number of stages -/
theorem step_N [Zero K] [DecidableEq K] (d : Desc K) (c c' : Capsule K) (o : Op K) (h : step d c o = .ok c') : c'.N = c.N := by
  cases o with
  | set i f v => simp only [step, Res.ok.injEq] at h; rw [← h]
  | setScaling i v => simp only [step, Res.ok.injEq] at h; rw [← h]
  | timeSteps N ts =>
    simp only [step, updateSteps] at h
    split_ifs at h with h1 h2
    · cases h
    · simp only [Res.ok.injEq] at h; rw [← h]
    · simp only [Res.bind, Res.ok.injEq] at h; rw [← h]
  | params i p =>
    obtain ⟨s, -, e⟩ := bind_ok _ _ _ h
    simp only [Res.ok.injEq] at e; rw [← e]
  | pGlobal data =>
    obtain ⟨s, -, e⟩ := bind_ok _ _ _ h
    simp only [Res.ok.injEq] at e; rw [← e]
  | iterate o => simp only [step, Res.ok.injEq] at h; rw [← h]
  | reset nm x0 =>
    simp only [step, reset] at h
    obtain ⟨s, -, e⟩ := bind_ok _ _ _ h
    simp only [Res.ok.injEq] at e; rw [← e]

theorem run_snoc [Zero K] [DecidableEq K] (d : Desc K) (c : Capsule K) (ops : List (Op K)) (o : Op K) :
    run d c (ops ++ [o]) = (run d c ops).bind (fun c => step d c o) := by
  unfold run; rw [List.foldl_append]; rfl

theorem run_N [Zero K] [DecidableEq K] (d : Desc K) (c c' : Capsule K) (ops : List (Op K)) (h : run d c ops = .ok c') :
    c'.N = c.N := by
  induction ops using List.reverseRecOn generalizing c' with
  | nil => simp only [run, List.foldl_nil, Res.ok.injEq] at h; rw [← h]
  | append_singleton ops o ih =>
    rw [run_snoc] at h
    obtain ⟨c1, e1, e2⟩ := bind_ok _ _ _ h
    rw [step_N d c1 c' o e2, ih c1 e1]

theorem step_no_ub [Zero K] [DecidableEq K] (d : Desc K) (c : Capsule K) (hc : c.N = d.N) (o : Op K) :
    step d c o ≠ .ub ∧ step d c o ≠ .refused := by
  cases o with
  | set i f v => simp [step]
  | setScaling i v => simp [step]
  | timeSteps N ts => simp only [step, updateSteps]; split_ifs <;> simp [Res.bind]
  | params i p => simp only [step, updateParams]; split_ifs <;> simp [Res.bind]
  | pGlobal data => simp only [step, setPGlobal]; split_ifs <;> simp [Res.bind]
  | iterate o => simp [step]
  | reset nm x0 =>
    cases nm with
    | false => simp [step, reset_soft]
    | true =>
      obtain ⟨s, e, -⟩ := reset_num d x0 c hc
      simp only [step]; rw [e]; simp

end Acados.GenSolver
