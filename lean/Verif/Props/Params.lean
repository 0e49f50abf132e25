import Verif.Lemmas.Params
import Verif.Props.Casadi
/-! # C41: parameter updates are exact -/
namespace Acados.Params
variable {K : Type*}

/-- the user's view before any request -/
def View.start [Zero K] : View K := ⟨fun _ _ => 0, fun _ => none⟩

/-- the memory shows the user's view -/
structure Shows (np : Nat → Nat) (N : Nat) (v : View K) (s : St K) : Prop where
  heap : ∀ t ≤ N, ∀ i < np t, s.heap (base np t + i) = v.val t i
  ptr : ∀ f, s.ptr f = (v.att f).map (base np)
  att : ∀ f t, v.att f = some t → t ≤ N

theorem step_shows (np : Nat → Nat) (N : Nat) (kind : Nat → Kind) (v : View K) (s : St K) (h : Shows np N v s) (op : Op K)
    (hop : op.InRange N np) (s' : St K) (hs : step np N kind s op = some s') : Shows np N (v.apply np op) s' := by
  cases op with
  | setAll st p =>
    simp only [step, Option.some.injEq] at hs
    subst hs
    obtain ⟨h1, h2⟩ := inSet_spec np st p s.heap
    refine ⟨fun t ht i hi => ?_, h.ptr, h.att⟩
    by_cases e : t = st
    · subst e
      simp only [View.apply, if_pos]
      exact h1 i hi
    · simp only [View.apply, if_neg e]
      exact (h2 t e i hi).trans (h.heap t ht i hi)
  | setSparse st upd =>
    simp only [step, Option.some.injEq] at hs
    subst hs
    refine ⟨fun t ht i hi => ?_, h.ptr, h.att⟩
    by_cases e : t = st
    · subst e
      simp only [View.apply, if_pos]
      have := fold_list upd (fun i => base np t + i) (fun i j e => by simpa using e) s.heap i
      simp only [inSetSparse]
      rw [this, h.heap t ht i hi]
      rfl
    · simp only [View.apply, if_neg e]
      refine (fold_list_frame upd (fun i => base np st + i) s.heap _ fun u hu => ?_).trans (h.heap t ht i hi)
      obtain ⟨h1, h2⟩ := hop.2 u hu
      obtain ⟨k, hk⟩ := Int.eq_ofNat_of_zero_le h1
      rw [hk] at h2 ⊢
      exact base_disjoint np e hi (by omega)
  | setFlat p =>
    simp only [step, Option.some.injEq] at hs
    subst hs
    refine ⟨fun t ht i hi => ?_, h.ptr, h.att⟩
    exact (setAllP_fold np (N + 1) p s.heap).2.1 t (by omega) i hi
  | attach f st =>
    simp only [step, attach] at hs
    split at hs
    · simp at hs
    · simp only [Option.some.injEq] at hs
      subst hs
      refine ⟨h.heap, fun g => ?_, fun g t hg => ?_⟩
      · simp only [View.apply]
        by_cases e : g = f
        · subst e; simp
        · simp [e, h.ptr]
      · simp only [View.apply] at hg
        split at hg
        · simp only [Option.some.injEq] at hg
          subst hg; exact hop
        · exact h.att g t hg

theorem init_shows [Zero K] (np : Nat → Nat) (N : Nat) (junk : Int → K) : Shows np N View.start (init np N junk) := by
  refine ⟨fun t ht i hi => ?_, fun _ => rfl, fun f t h => by simp [View.start] at h⟩
  simp only [init, View.start]
  suffices ∀ n, ∀ t < n, ∀ i < np t, (List.range n).foldl (fun h s => (List.range (np s)).foldl
      (fun h (i : Nat) => Function.update h (base np s + i) 0) h) junk (base np t + i) = 0 from this _ t (by omega) i hi
  intro n
  induction n with
  | zero => intro t ht; omega
  | succ n ih =>
    intro t ht i hi
    rw [List.range_succ, List.foldl_append]
    simp only [List.foldl_cons, List.foldl_nil]
    obtain ⟨h1, h2⟩ := fold_block (np n) (fun i => base np n + (i : Int)) (fun i _ j _ e => by simpa using e) (fun _ => (0 : K))
      ((List.range n).foldl (fun h s => (List.range (np s)).foldl (fun h (i : Nat) => Function.update h (base np s + i) 0) h) junk)
    by_cases e : t = n
    · subst e; exact h1 i hi
    · exact (h2 _ fun j hj => base_disjoint np e hi hj).trans (ih t (by omega) i hi)

theorem run_shows [Zero K] (np : Nat → Nat) (N : Nat) (kind : Nat → Kind) (junk : Int → K) (ops : List (Op K))
    (hops : ∀ op ∈ ops, op.InRange N np) (s : St K) (hs : run np N kind (init np N junk) ops = some s) :
    Shows np N (ops.foldl (View.apply np) View.start) s := by
  unfold run at hs
  have : ∀ (v : View K) (s0 : St K), Shows np N v s0 → ops.foldlM (step np N kind) s0 = some s →
      Shows np N (ops.foldl (View.apply np) v) s := by
    clear hs
    induction ops with
    | nil =>
      intro v s0 h0 h
      have h : s0 = s := by simpa using h
      subst h; exact h0
    | cons op ops ih =>
      intro v s0 h0 h
      rw [List.foldlM_cons] at h
      obtain ⟨s1, h1, h2⟩ := Option.bind_eq_some_iff.1 h
      exact ih (fun o ho => hops o (List.mem_cons_of_mem _ ho)) _ s1
        (step_shows np N kind v s0 h0 op (hops op List.mem_cons_self) s1 h1) h2
  exact this _ _ (init_shows np N junk) hs

/-- C41 (histories): after any sequence of full, sparse and flat updates and attachments with existing stages and
indices, reading back any stage, reading back all stages, and evaluating any attached function deliver exactly the values
the user's view has; a casadi function that was never attached is refused.
Missing for the full property: a generic function that was never attached is not refused
(`C41_generic_unset_not_refused`) and indices are not checked (`C41_sparse_index_unchecked`). -/
theorem C41_history_partial [Zero K] (np : Nat → Nat) (N : Nat) (kind : Nat → Kind) (junk : Int → K) (ops : List (Op K))
    (hops : ∀ op ∈ ops, op.InRange N np) (s : St K) (hs : run np N kind (init np N junk) ops = some s) :
    let v := ops.foldl (View.apply np) View.start
    (∀ t ≤ N, ∀ out : Nat → K, (∀ i < np t, inGet np t s.heap out i = v.val t i)
        ∧ ∀ i, np t ≤ i → inGet np t s.heap out i = out i)
    ∧ (∀ out : Nat → K, (∀ t ≤ N, ∀ i < np t, getAllP np N s.heap out (offset np t + i) = v.val t i)
        ∧ ∀ a, offset np (N + 1) ≤ a → getAllP np N s.heap out a = out a)
    ∧ (∀ f t, v.att f = some t → ∃ p, evaluate kind s f = .params p ∧ ∀ i < np t, p i = v.val t i)
    ∧ (∀ f d, v.att f = none → kind f = .casadi d → evaluate kind s f = .exit) := by
  intro v
  have hv := run_shows np N kind junk ops hops s hs
  refine ⟨fun t ht out => ?_, fun out => ?_, fun f t hf => ?_, fun f d hf hk => ?_⟩
  · obtain ⟨h1, h2⟩ := fold_block (np t) (fun i => i) (fun i _ j _ e => e) (fun i => s.heap (base np t + i)) out
    exact ⟨fun i hi => (h1 i hi).trans (hv.heap t ht i hi), fun i hi => h2 i fun j hj => by omega⟩
  · obtain ⟨_, h1, h2⟩ := getAllP_fold np (N + 1) s.heap out
    exact ⟨fun t ht i hi => (h1 t (by omega) i hi).trans (hv.heap t ht i hi), h2⟩
  · have hp := hv.ptr f
    rw [show (ops.foldl (View.apply np) View.start).att f = some t from hf] at hp
    refine ⟨fun i => s.heap (base np t + i), ?_, fun i hi => hv.heap t (hv.att f t hf) i hi⟩
    simp only [evaluate, hp, Option.map_some]
  · have hp := hv.ptr f
    rw [show (ops.foldl (View.apply np) View.start).att f = none from hf] at hp
    simp only [evaluate, hp, Option.map_none, hk]

/-- The history ends the process exactly when a casadi function with a sparse parameter argument is attached. -/
theorem C41_exit_iff (np : Nat → Nat) (N : Nat) (kind : Nat → Kind) (s : St K) (ops : List (Op K)) :
    run np N kind s ops = none ↔ ∃ f st, Op.attach f st ∈ ops ∧ kind f = .casadi false := by
  unfold run
  induction ops generalizing s with
  | nil => simp
  | cons op ops ih =>
    rw [List.foldlM_cons]
    cases op with
    | setAll st p => simpa [step] using ih _
    | setSparse st p => simpa [step] using ih _
    | setFlat p => simpa [step] using ih _
    | attach f st =>
      by_cases hk : kind f = .casadi false
      · simp only [step, attach, if_pos hk]
        simp only [List.mem_cons]
        exact ⟨fun _ => ⟨f, st, .inl rfl, hk⟩, fun _ => rfl⟩
      · simp only [step, attach, if_neg hk]
        have := ih { s with ptr := Function.update s.ptr f (some (base np st)) }
        simp only [List.mem_cons, Op.attach.injEq]
        refine this.trans ⟨fun ⟨g, t, h1, h2⟩ => ⟨g, t, .inr h1, h2⟩, fun ⟨g, t, h1, h2⟩ => ?_⟩
        rcases h1 with ⟨rfl, rfl⟩ | h1
        · exact absurd h2 hk
        · exact ⟨g, t, h1, h2⟩

/-- The generated setter refuses a wrong number of parameters and otherwise acts as the full update. -/
theorem C41_update_params (n0 : Nat) (np : Nat → Nat) (N : Nat) (kind : Nat → Kind) (st : Nat) (p : Nat → K) (n : Nat) (s : St K) :
    updateParams n0 np st p n s = if n = n0 then step np N kind s (.setAll st p) else none := by
  unfold updateParams step
  by_cases h : n0 = n
  · subst h; simp
  · rw [if_pos h, if_neg (Ne.symm h)]

/-- A function of the generic kind that was never given its parameter memory is evaluated with an uninitialised pointer
(`external_function_generic.c` lines 1345-1353), for every history that does not attach it. -/
theorem C41_generic_unset_not_refused [Zero K] (np : Nat → Nat) (N : Nat) (kind : Nat → Kind) (junk : Int → K)
    (f : Nat) (hk : kind f = .generic) (ops : List (Op K)) (hops : ∀ op ∈ ops, op.InRange N np)
    (hf : ∀ st, Op.attach f st ∉ ops) (s : St K) (hs : run np N kind (init np N junk) ops = some s) :
    evaluate kind s f = .wild := by
  have hv := (run_shows np N kind junk ops hops s hs).ptr f
  have : ∀ v : View K, v.att f = none → (ops.foldl (View.apply np) v).att f = none := by
    clear hv hs hops
    induction ops with
    | nil => intro v h; exact h
    | cons op ops ih =>
      intro v h
      refine ih (fun st h => hf st (List.mem_cons_of_mem _ h)) _ ?_
      cases op with
      | attach g st =>
        simp only [View.apply]
        rw [if_neg ?_, h]
        rintro rfl
        exact hf st List.mem_cons_self
      | _ => exact h
  rw [this _ rfl] at hv
  simp only [evaluate, hk, hv, Option.map_none]

/-- Sparse updates do not check their indices: index `np stage` of a stage silently changes the first parameter of the
next stage (when it has any). -/
theorem C41_sparse_index_unchecked (np : Nat → Nat) (N : Nat) (kind : Nat → Kind) (s : St K) (st : Nat) (x : K) :
    ∃ s', step np N kind s (.setSparse st [((np st : Int), x)]) = some s'
      ∧ s'.heap (base np (st + 1) + (0 : Nat)) = x := by
  refine ⟨_, rfl, ?_⟩
  simp [inSetSparse, base]

/-- C41, functions with their own parameter memory: the full update stores the vector and nothing else. -/
theorem C41_own_set (n : Nat) (p own : Nat → K) :
    (∀ i < n, genericSet n p own i = p i) ∧ ∀ i, n ≤ i → genericSet n p own i = own i := by
  obtain ⟨h1, h2⟩ := fold_block n (fun i => i) (fun i _ j _ e => e) p own
  exact ⟨h1, fun i hi => h2 i fun j hj => by omega⟩

/-- C41, functions with their own parameter memory: the sparse update stores the last value listed for each index and
changes nothing else. -/
theorem C41_own_set_sparse (upd : List (Int × K)) (own : Int → K) (i : Nat) :
    genericSetSparse upd own i = (lastFor upd i).getD (own i) :=
  fold_list upd (fun i => i) (fun _ _ e => e) own i

/-- C41, casadi functions with their own parameter memory and a dense parameter argument of length `n`. -/
theorem C41_own_casadi [Zero K] {sp : Nat → Nat} (hv : Casadi.ValidSparsity sp) (hc : sp 1 = 1) (hd : sp 2 ≠ 0) (p own : Nat → K) :
    (∀ i < sp 0, casadiSet sp p own i = p i) ∧ ∀ i, sp 0 ≤ i → casadiSet sp p own i = own i := by
  obtain ⟨h1, _, h3⟩ := Casadi.C40_from_colmaj hv p own
  refine ⟨fun i hi => ?_, fun i hi => h3 i ?_⟩
  · have := h1 hd i hi 0 (by omega)
    rw [Nat.zero_mul, Nat.add_zero] at this
    exact this
  · rw [Casadi.C40_nnz hv, Casadi.count, if_neg hd, hc]
    omega

/-- C41, sparse updates of a casadi function: refused for sparse parameter arguments, else exact. -/
theorem C41_own_casadi_sparse (sp : Nat → Nat) (upd : List (Int × K)) (own : Int → K) :
    (Casadi.isDense sp = false → casadiSetSparse sp upd own = none)
    ∧ (Casadi.isDense sp = true → ∃ o, casadiSetSparse sp upd own = some o
        ∧ ∀ i : Nat, o i = (lastFor upd i).getD (own i)) := by
  refine ⟨fun h => by simp [casadiSetSparse, h], fun h => ⟨upd.foldl (fun o u => Function.update o u.1 u.2) own, by simp [casadiSetSparse, h], fun i => ?_⟩⟩
  exact fold_list upd (fun i => i) (fun _ _ e => e) own i

/-! ### Non-vacuity: two stages with 2 and 3 parameters, one function of each kind -/

example : let np : Nat → Nat := fun s => if s = 0 then 2 else 3
    let kind : Nat → Kind := fun f => if f = 0 then .generic else .casadi true
    let ops : List (Op Int) := [.attach 0 1, .setAll 1 (fun i => 10 + i), .setSparse 1 [(2, 5), (0, 7), (2, 6)],
      .setSparse 0 [(1, 4)]]
    (∀ op ∈ ops, op.InRange 1 np) ∧ ∃ s, run np 1 kind (init np 1 fun _ => 99) ops = some s
      ∧ (List.range 3).map (inGet np 1 s.heap fun _ => 0) = [7, 11, 6]
      ∧ (List.range 5).map (getAllP np 1 s.heap fun _ => 0) = [0, 4, 7, 11, 6] := by
  refine ⟨?_, _, rfl, by decide, by decide⟩
  simp [Op.InRange]
  omega

end Acados.Params
