import Verif.Lemmas.Batch
import Verif.Props.Flat
/-!
# C82: a batch solver is a family of independent solvers
-/
namespace Acados.Batch
open Acados.Flat
open Acados.Step (Interleaves exec seqSched)
variable {K R C : Type}

/-! ### The generated batch functions -/

/-- **C82**: a batch call whose iterations work on their own capsule, each by any number of steps, gives under every
schedule and every number of threads what the single calls give, and touches no other capsule. -/
theorem C82_schedule (n : Nat) (body : Nat → List (C → C)) (sched : List ((Nat → C) → Nat → C))
    (h : Interleaves (loop n body) sched) (caps : Nat → C) :
    (∀ i < n, exec sched caps i = exec (body i) (caps i)) ∧ ∀ i, n ≤ i → exec sched caps i = caps i := by
  rw [loop_exec n body sched h caps]
  exact ⟨fun i hi => if_pos hi, fun i hi => if_neg (by omega)⟩

/-- **C82**: the batch setter, under every schedule, leaves every capsule as `AcadosOcpSolver.set` with its row of the array
does, and the other capsules unchanged. -/
theorem C82_set [Mul K] [Zero K] (d : PDims) (k : Nat) (f : SField) (hs : f ≠ .out .s) (n : Nat) (rows : Nat → List K) (data : Nat → K)
    (hr : ∀ i < n, (rows i).length = dimOf d k f)
    (hd : ∀ i < n, ∀ j < dimOf d k f, data (i * dimOf d k f + j) = (rows i).getD j 0)
    (acts : Nat → List ((Nat → Cap K R) → Nat → Cap K R)) (hc : cSet d k f data (n * dimOf d k f) n = some acts)
    (sched : List ((Nat → Cap K R) → Nat → Cap K R)) (h : Interleaves acts sched) (caps : Nat → Cap K R) :
    (∀ i < n, pySet d k f (rows i) (caps i) = some (exec sched caps i)) ∧ ∀ i, n ≤ i → exec sched caps i = caps i := by
  unfold cSet at hc
  rw [if_neg (by simp)] at hc
  simp only [Option.some.injEq] at hc
  subst hc
  obtain ⟨h1, h2⟩ := C82_schedule n _ sched h caps
  refine ⟨fun i hi => ?_, h2⟩
  rw [h1 i hi]
  have hl := hr i hi
  have hpack : ∀ (m off : Nat) (g : Nat → Nat → K), m = dimOf d k f →
      packRow m (fun j => data (i * dimOf d k f + j)) off k g = packRow m (fun j => (rows i).getD j 0) off k g := by
    intro m off g hm
    funext k' j
    unfold packRow
    by_cases hj : k' = k ∧ off ≤ j ∧ j < off + m
    · rw [if_pos hj, if_pos hj]; exact hd i hi _ (by omega)
    · rw [if_neg hj, if_neg hj]
  have hfold : ∀ (fam : Flat.Fam) (off m : Nat) (o : Adr → K), m = dimOf d k f →
      pack m (fun j => data (i * dimOf d k f + j)) 0 fam k off o = pack m (fun j => (rows i).getD j 0) 0 fam k off o := by
    intro fam off m o hm
    unfold pack
    apply List.foldl_ext
    intro o' j hj
    have hj := List.mem_range.1 hj
    simp only [Nat.zero_add]
    rw [hd i hi j (by omega)]
  unfold pySet
  simp only
  rw [if_neg (by simpa using hl)]
  cases f with
  | p =>
    simp only [setBody, exec, List.foldl_cons, List.foldl_nil, setP]
    rw [hpack _ _ _ (by rfl)]
  | xdotGuess =>
    simp only [setBody, exec, List.foldl_cons, List.foldl_nil, setXdotGuess]
    rw [hpack _ _ _ (by rfl)]
  | zGuess =>
    simp only [setBody, exec, List.foldl_cons, List.foldl_nil, setZGuess]
    rw [hpack _ _ _ (by rfl)]
  | sensX =>
    simp only [setBody, exec, List.foldl_cons, List.foldl_nil, setSens, outSet]
    rw [hfold _ _ _ _ (by rfl)]
  | sensU =>
    simp only [setBody, exec, List.foldl_cons, List.foldl_nil, setSens, outSet]
    rw [hfold _ _ _ _ (by rfl)]
  | out g =>
    cases g with
    | z =>
      simp only [setBody, exec, List.foldl_cons, List.foldl_nil, setOut, setZGuess, outSet]
      rw [hfold _ _ _ _ (by rfl), hpack _ _ _ (by rfl)]
      rfl
    | s => exact absurd rfl hs
    | x | u | sl | su | pi | lam =>
      simp only [setBody, exec, List.foldl_cons, List.foldl_nil, setOut, outSet]
      rw [hfold _ _ _ _ (by rfl)]
      rfl

/-- **C82**: the array of the batch getter has, under every schedule, the values of solver `i` in row `i`: the numbers
`ocp_nlp_out_get` gives for this solver (for `sens_` fields those of the sensitivity output). -/
theorem C82_get [Zero K] (d : PDims) (k : Nat) (f : GField) (n : Nat) (caps : Nat → Cap K R)
    (acts : Nat → List ((Nat → K) → Nat → K)) (hc : cGet d k f caps (n * getDim d k f) n = some acts)
    (sched : List ((Nat → K) → Nat → K)) (h : Interleaves acts sched) (a : Nat → K) :
    (∀ g, g ≠ .s → f = .out g → ∀ i < n, ∃ v, outGet d.toDims k g (caps i).out (fun _ => 0) = some v ∧
      ∀ j < getDim d k f, exec sched a (i * getDim d k f + j) = v j) ∧
    (∀ g, g ≠ .s → f = .sens g → ∀ i < n, ∃ v, outGet d.toDims k g (caps i).sens (fun _ => 0) = some v ∧
      ∀ j < getDim d k f, exec sched a (i * getDim d k f + j) = v j) ∧
    (f = .p → getDim d k f = d.np k ∧ ∀ i < n, ∀ j < d.np k, exec sched a (i * d.np k + j) = (caps i).p k j) ∧
    ∀ q, n * getDim d k f ≤ q → exec sched a q = a q := by
  unfold cGet at hc
  rw [if_neg (by simp)] at hc
  simp only [Option.some.injEq] at hc
  subst hc
  obtain ⟨h1, h2⟩ := getLoop_exec n (getDim d k f) _ sched h a
  refine ⟨fun g hg hf i hi => ?_, fun g hg hf i hi => ?_, fun hf => ?_, h2⟩
  · subst hf
    obtain ⟨v, e, hv, -⟩ := C46_get_stage d.toDims k g (caps i).out (fun _ => 0) hg
    refine ⟨v, e, fun j hj => ?_⟩
    rw [h1 i hi j hj]
    have : attr d k g = g.len d.toDims k := by cases g <;> rfl
    rw [hv j (by rw [← this]; exact hj)]
    rfl
  · subst hf
    obtain ⟨v, e, hv, -⟩ := C46_get_stage d.toDims k g (caps i).sens (fun _ => 0) hg
    refine ⟨v, e, fun j hj => ?_⟩
    rw [h1 i hi j hj]
    have : attr d k g = g.len d.toDims k := by cases g <;> rfl
    rw [hv j (by rw [← this]; exact hj)]
    rfl
  · subst hf
    exact ⟨rfl, h1⟩

/-- **C82**: what the batch setter wrote is what the batch getter reads, number by number, whatever the two schedules were:
iterate (except multipliers of inequalities, which are multiplied with the mask), sensitivities and parameters. -/
theorem C82_roundtrip [Mul K] [Zero K] (d : PDims) (k : Nat) (f : SField) (g : GField) (n : Nat) (data : Nat → K)
    (hfg : (∃ h, h ≠ .s ∧ h ≠ .lam ∧ f = .out h ∧ g = .out h) ∨ (f = .sensX ∧ g = .sens .x) ∨ (f = .sensU ∧ g = .sens .u) ∨
      (f = .p ∧ g = .p))
    (acts : Nat → List ((Nat → Cap K R) → Nat → Cap K R)) (nData : Nat) (hc : cSet d k f data nData n = some acts)
    (sched : List ((Nat → Cap K R) → Nat → Cap K R)) (h : Interleaves acts sched) (caps : Nat → Cap K R)
    (acts' : Nat → List ((Nat → K) → Nat → K)) (hc' : cGet d k g (exec sched caps) nData n = some acts')
    (sched' : List ((Nat → K) → Nat → K)) (h' : Interleaves acts' sched') (a : Nat → K) (q : Nat) (hq : q < nData) :
    exec sched' a q = data q := by
  unfold cSet at hc
  unfold cGet at hc'
  split_ifs at hc with hn
  split_ifs at hc' with hn'
  simp only [Option.some.injEq] at hc hc'
  simp only [ne_eq, not_not] at hn hn'
  subst hc hc'
  have hdim : getDim d k g = dimOf d k f := by
    rcases hfg with ⟨h, -, -, rfl, rfl⟩ | ⟨rfl, rfl⟩ | ⟨rfl, rfl⟩ | ⟨rfl, rfl⟩ <;> rfl
  obtain ⟨h1, -⟩ := C82_schedule n _ sched h caps
  obtain ⟨h2, -⟩ := getLoop_exec n (getDim d k g) _ sched' h' a
  rw [hdim] at h2
  have ht : 0 < dimOf d k f := by
    rcases Nat.eq_zero_or_pos (dimOf d k f) with e | e
    · rw [e] at hn; omega
    · exact e
  have hi : q / dimOf d k f < n := Nat.div_lt_of_lt_mul (by rw [Nat.mul_comm, hn]; exact hq)
  have hj := Nat.mod_lt q ht
  have e : q / dimOf d k f * dimOf d k f + q % dimOf d k f = q := by
    rw [Nat.mul_comm]; exact Nat.div_add_mod q _
  have h3 := h2 _ hi _ hj
  rw [e, h1 _ hi] at h3
  rw [h3]
  have pk : ∀ (m : Nat) (fam : Flat.Fam) (off : Nat) (o : Adr → K) (i j : Nat), j < m → i * dimOf d k f + j = q →
      pack m (fun j => data (i * dimOf d k f + j)) 0 fam k off o (fam, k, off + j) = data q := by
    intro m fam off o i j hj e
    rw [(pack_spec m _ 0 fam k off o).1 j hj, Nat.zero_add, e]
  have p0 : ∀ (m : Nat) (fam : Flat.Fam) (o : Adr → K) (i j : Nat), j < m → i * dimOf d k f + j = q →
      pack m (fun j => data (i * dimOf d k f + j)) 0 fam k 0 o (fam, k, j) = data q := by
    intro m fam o i j hj e
    have := pk m fam 0 o i j hj e
    rwa [Nat.zero_add] at this
  rcases hfg with ⟨fl, hs, hl, rfl, rfl⟩ | ⟨rfl, rfl⟩ | ⟨rfl, rfl⟩ | ⟨rfl, rfl⟩
  · cases fl with
    | s => exact absurd rfl hs
    | lam => exact absurd rfl hl
    | x => exact pk _ .ux _ _ _ _ hj e
    | u => exact p0 _ .ux _ _ _ hj e
    | sl => exact pk _ .ux _ _ _ _ hj e
    | su => exact pk _ .ux _ _ _ _ hj e
    | pi => exact p0 _ .pi _ _ _ hj e
    | z => exact p0 _ .z _ _ _ hj e
  · exact pk _ .ux _ _ _ _ hj e
  · exact p0 _ .ux _ _ _ hj e
  · simp only [getSrc, setBody, exec, List.foldl_cons, List.foldl_nil, setP, packRow]
    rw [if_pos ⟨trivial, by omega, by rw [Nat.zero_add]; exact hj⟩, Nat.sub_zero, e]

/-- **C82**: a wrong amount of data ends the process (the functions are left with `exit(1)`). -/
theorem C82_size [Mul K] [Zero K] (d : PDims) (k : Nat) (f : SField) (g : GField) (fl : Field) (data : Nat → K) (nData n : Nat)
    (caps : Nat → Cap K R) :
    (cSet d k f data nData n = (none : Option (Nat → List ((Nat → Cap K R) → Nat → Cap K R))) ↔ nData ≠ n * dimOf d k f) ∧
    (cGet d k g caps nData n = none ↔ nData ≠ n * getDim d k g) ∧
    (cSetFlat d fl data nData n = (none : Option (Nat → List ((Nat → Cap K R) → Nat → Cap K R))) ↔ nData ≠ n * total d.toDims fl) ∧
    (cGetFlat d fl caps nData n = none ↔ nData ≠ n * total d.toDims fl) := by
  unfold cSet cGet cSetFlat cGetFlat
  refine ⟨?_, ?_, ?_, ?_⟩
  all_goals
    constructor
    · intro h e
      rw [e] at h
      simp at h
    · intro h
      rw [if_pos (fun e => h e.symm)]

/-- **C82**: what is written with `set_flat` is read back with `get_flat`, row by row, whatever the two schedules were
(multipliers are multiplied with the mask). -/
theorem C82_flat_roundtrip [Mul K] [Zero K] (d : PDims) (f : Field) (hf : f ≠ .lam) (n : Nat) (data : Nat → K) (caps : Nat → Cap K R)
    (acts : Nat → List ((Nat → Cap K R) → Nat → Cap K R)) (hc : cSetFlat d f data (n * total d.toDims f) n = some acts)
    (sched : List ((Nat → Cap K R) → Nat → Cap K R)) (h : Interleaves acts sched)
    (acts' : Nat → List ((Nat → K) → Nat → K)) (hc' : cGetFlat d f (exec sched caps) (n * total d.toDims f) n = some acts')
    (sched' : List ((Nat → K) → Nat → K)) (h' : Interleaves acts' sched') (a : Nat → K) (q : Nat) (hq : q < n * total d.toDims f) :
    exec sched' a q = data q := by
  unfold cSetFlat at hc
  unfold cGetFlat at hc'
  rw [if_neg (by simp)] at hc hc'
  simp only [Option.some.injEq] at hc hc'
  subst hc hc'
  obtain ⟨h1, -⟩ := C82_schedule n _ sched h caps
  obtain ⟨h2, -⟩ := getLoop_exec n (total d.toDims f) _ sched' h' a
  have ht : 0 < total d.toDims f := by
    rcases Nat.eq_zero_or_pos (total d.toDims f) with e | e
    · rw [e] at hq; omega
    · exact e
  have hi : q / total d.toDims f < n := Nat.div_lt_of_lt_mul (by rw [Nat.mul_comm]; exact hq)
  have hj := Nat.mod_lt q ht
  have e : q / total d.toDims f * total d.toDims f + q % total d.toDims f = q := by
    rw [Nat.mul_comm]; exact Nat.div_add_mod q _
  have := h2 _ hi _ hj
  rw [e, h1 _ hi] at this
  rw [this]
  simp only [exec, List.foldl_cons, List.foldl_nil]
  rw [C46_roundtrip d.toDims _ f _ _ _ hf _ hj, e]

/-- **C82**: entry `[i, s, j]` of the result of the adjoint sensitivities, an array of shape `(n, n_seeds, np)`, is entry `j` of
the adjoint of solver `i` for seed `s`, whatever the schedules of the parallel loops (one per seed) were. -/
theorem C82_adjoint (n nSeeds np : Nat) (adj : Nat → Nat → Nat → K) (scheds : Nat → List ((Nat → K) → Nat → K))
    (h : ∀ s, Interleaves (adjLoop n nSeeds np adj s) (scheds s)) (a : Nat → K) (i s j : Nat) (hi : i < n) (hs : s < nSeeds)
    (hj : j < np) :
    (List.range nSeeds).foldl (fun (a : Nat → K) s => exec (scheds s) a) a (i * (nSeeds * np) + s * np + j) = adj i s j := by
  -- all writes are values of one function of the position
  have dec : ∀ i s j, s < nSeeds → j < np → (s * np + i * (nSeeds * np) + j) / (nSeeds * np) = i ∧
      (s * np + i * (nSeeds * np) + j) % (nSeeds * np) / np = s ∧ (s * np + i * (nSeeds * np) + j) % np = j := by
    intro i s j hs hj
    have h1 : s * np + j < nSeeds * np := by
      have : (s + 1) * np ≤ nSeeds * np := Nat.mul_le_mul_right _ hs
      rw [Nat.add_mul, Nat.one_mul] at this
      omega
    have e : s * np + i * (nSeeds * np) + j = (nSeeds * np) * i + (s * np + j) := by
      rw [Nat.mul_comm i]; omega
    have e2 : s * np + j = np * s + j := by rw [Nat.mul_comm]
    refine ⟨?_, ?_, ?_⟩
    · rw [e, Nat.mul_add_div (by omega), Nat.div_eq_of_lt h1, Nat.add_zero]
    · rw [e, Nat.mul_add_mod, Nat.mod_eq_of_lt h1, e2, Nat.mul_add_div (by omega), Nat.div_eq_of_lt hj, Nat.add_zero]
    · have e3 : s * np + i * (nSeeds * np) + j = np * (s + nSeeds * i) + j := by
        rw [Nat.mul_add, Nat.mul_comm np s, ← Nat.mul_assoc np, Nat.mul_comm np nSeeds, Nat.mul_comm i]
      rw [e3, Nat.mul_add_mod, Nat.mod_eq_of_lt hj]
  let g : Nat → K := fun q => adj (q / (nSeeds * np)) (q % (nSeeds * np) / np) (q % np)
  have key : ∀ s < nSeeds, ∀ (a : Nat → K) q,
      ((∃ i < n, ∃ j < np, q = s * np + i * (nSeeds * np) + j) → exec (scheds s) a q = g q) ∧
      ((¬ ∃ i < n, ∃ j < np, q = s * np + i * (nSeeds * np) + j) → exec (scheds s) a q = a q) := by
    intro s hs a q
    obtain ⟨k1, k2⟩ := write_exec g (adjLoop n nSeeds np adj s)
      (fun i => if i < n then (List.range np).map fun j => s * np + i * (nSeeds * np) + j else []) (fun i => by
        unfold adjLoop
        by_cases hi : i < n
        · rw [if_pos hi, if_pos hi, List.map_map]
          apply List.map_congr_left
          intro j hj
          obtain ⟨d1, d2, d3⟩ := dec i s j hs (List.mem_range.1 hj)
          simp only [Function.comp, g, d1, d2, d3]
        · rw [if_neg hi, if_neg hi]; rfl) (scheds s) (h s) a q
    refine ⟨fun ⟨i, hi, j, hj, e⟩ => k1 ⟨i, ?_⟩, fun hn => k2 fun i hm => hn ?_⟩
    · rw [if_pos hi, e]; exact List.mem_map.2 ⟨j, List.mem_range.2 hj, rfl⟩
    · by_cases hi : i < n
      · rw [if_pos hi] at hm
        obtain ⟨j, hj, e⟩ := List.mem_map.1 hm
        exact ⟨i, hi, j, List.mem_range.1 hj, e.symm⟩
      · rw [if_neg hi] at hm; exact absurd hm (by simp)
  have hq : i * (nSeeds * np) + s * np + j = s * np + i * (nSeeds * np) + j := by omega
  have gq : g (s * np + i * (nSeeds * np) + j) = adj i s j := by
    obtain ⟨d1, d2, d3⟩ := dec i s j hs hj
    simp only [g, d1, d2, d3]
  rw [hq, ← gq]
  have main : ∀ m ≤ nSeeds, s < m →
      (List.range m).foldl (fun (a : Nat → K) s => exec (scheds s) a) a (s * np + i * (nSeeds * np) + j)
        = g (s * np + i * (nSeeds * np) + j) := by
    intro m
    induction m with
    | zero => intro _ h; omega
    | succ m ih =>
      intro hm hsm
      rw [List.range_succ, List.foldl_append]
      simp only [List.foldl_cons, List.foldl_nil]
      by_cases hw : ∃ i' < n, ∃ j' < np, s * np + i * (nSeeds * np) + j = m * np + i' * (nSeeds * np) + j'
      · exact (key m (by omega) _ _).1 hw
      · have hne : s ≠ m := fun e => hw ⟨i, hi, j, hj, by rw [e]⟩
        rw [(key m (by omega) _ _).2 hw]
        exact ih (by omega) (by omega)
  exact main nSeeds (le_refl _) hs

/-- **C82**: `constraints_set` of an array of shape `(n, r, c)`: sample `i` arrives as the column-major matrix. -/
theorem C82_con_layout (r c : Nat) (v : Nat → Nat → Nat → K) (i a b : Nat) (ha : a < r) (hb : b < c) :
    conData r c v (i * (r * c) + (b * r + a)) = v i a b := by
  have h1 : b * r + a < c * r := by
    have : (b + 1) * r ≤ c * r := Nat.mul_le_mul_right _ hb
    rw [Nat.add_mul, Nat.one_mul] at this
    omega
  have e : i * (r * c) + (b * r + a) = (c * r) * i + (b * r + a) := by rw [Nat.mul_comm r c, Nat.mul_comm i]
  unfold conData
  have e1 : (i * (r * c) + (b * r + a)) / (c * r) = i := by
    rw [e, Nat.mul_add_div (by omega), Nat.div_eq_of_lt h1, Nat.add_zero]
  have e2 : (i * (r * c) + (b * r + a)) % (c * r) = r * b + a := by
    rw [e, Nat.mul_add_mod, Nat.mod_eq_of_lt h1, Nat.mul_comm]
  rw [e1, e2, Nat.mul_add_mod, Nat.mod_eq_of_lt ha, Nat.mul_add_div (by omega), Nat.div_eq_of_lt ha, Nat.add_zero]

/-- **C82**, negation: a batch of matrices with rows and columns swapped, or of any other shape with the same number of
entries, is accepted, while the single solver rejects it; the entries arrive at other places. -/
theorem C82_con_shape_false (n r c : Nat) (hr : r ≠ c) (hc : 0 < c) :
    conAccepts n c r r c ∧ ¬ conAcceptsSingle c r r c := by
  refine ⟨?_, fun h => ?_⟩
  · unfold conAccepts; rw [if_neg (by omega), Nat.mul_comm r c]
  · unfold conAcceptsSingle at h
    simp only [Prod.mk.injEq] at h
    exact hr h.2

/-- **C82**, negation: sensitivities of the slacks are not returned for more than one slack (the column has room for both
kinds of slacks, and the assignment raises an exception); for one slack the value is stored twice. -/
theorem C82_slack_sens_false (d : PDims) (k : Nat) (sl : List K) (hl : sl.length = d.ns k) :
    (2 ≤ d.ns k → slackSens d k sl = none) ∧ (∀ x, sl = [x] → slackSens d k sl = some [x, x]) := by
  refine ⟨fun h => ?_, fun x hx => ?_⟩
  · unfold slackSens assignCol attr
    simp only
    rw [if_neg (by omega)]
    match sl, hl with
    | [], hl => rfl
    | [_], hl => simp only [List.length_cons, List.length_nil] at hl; omega
    | _ :: _ :: _, _ => rfl
  · subst hx
    simp only [List.length_cons, List.length_nil] at hl
    unfold slackSens assignCol attr
    simp only
    rw [← hl, if_neg (by simp)]
    rfl

/-! ### The Python object -/

/-- the family a new batch solver stands for -/
def famNew (fresh : C) (n : Nat) : Family C := ⟨fun _ => fresh, fun _ => 0, n⟩

theorem new_agree (fresh : C) (saveP : Bool) (n : Nat) : Agree fresh (objNew fresh saveP n) (famNew fresh n) := by
  refine ⟨rfl, by simp [objNew], by simp [objNew], fun i s hs => ?_, fun _ _ => rfl⟩
  have := List.mem_replicate.1 (List.mem_of_getElem? hs)
  rw [this.2]; rfl

theorem new_agreeS (fresh : C) (saveP : Bool) (n : Nat) : AgreeS (objNew fresh saveP n) (famNew fresh n) := by
  refine ⟨fun i s hs => ?_, fun i t ht => ?_, fun _ _ => rfl⟩
  · have := List.mem_replicate.1 (List.mem_of_getElem? hs)
    rw [this.2]; rfl
  · exact (List.mem_replicate.1 (List.mem_of_getElem? ht)).2

/-- **C82**: after every history of batch calls and calls of the members, in which the batch may grow and shrink, every
solver is in the state of an independent solver that got the same calls; solvers created on demand included.  No
call uses a capsule or a status entry that does not exist. -/
theorem C82_family (sv : C → C × Int) (fresh : C) (saveP : Bool) (n : Nat) (ops : List (BOp C)) :
    objRun sv fresh (objNew fresh saveP n) ops ≠ .ub ∧
    ∀ o, objRun sv fresh (objNew fresh saveP n) ops = .ok o → ∃ a, famRun sv (famNew fresh n) ops = some a ∧
      o.cur = a.cur ∧ o.cur ≤ o.solvers.length ∧ ∀ i s, o.solvers[i]? = some s → s.cap = a.cap i := by
  rcases run_agree sv (new_agree fresh saveP n) ops with ⟨o', a', e1, e2, h⟩ | e
  · rw [e1]
    refine ⟨by simp, fun o ho => ?_⟩
    simp only [Res.ok.injEq] at ho
    subst ho
    exact ⟨a', e2, h.cur.symm, h.le, h.cap⟩
  · rw [e]
    exact ⟨by simp, fun o ho => by cases ho⟩

/-- **C82**: `solve` and the getters raise an exception exactly if they are asked for more solvers than the last call used;
setters never do. -/
theorem C82_raises (sv : C → C × Int) (fresh : C) (saveP : Bool) (n : Nat) (ops : List (BOp C)) (o : Obj C)
    (h : objRun sv fresh (objNew fresh saveP n) ops = .ok o) :
    (∀ m, objStep sv fresh o (.solve m) = .raise ↔ ∃ k, m = some k ∧ o.cur < k) ∧
    (∀ m, objStep sv fresh o (.read m) = .raise ↔ ∃ k, m = some k ∧ o.cur < k) ∧
    ∀ k f, ∃ o', objStep sv fresh o (.change k f) = .ok o' ∧ o'.cur = k := by
  rcases run_agree sv (new_agree fresh saveP n) ops with ⟨o', a', e1, e2, hA⟩ | e
  swap
  · rw [e] at h; cases h
  rw [h] at e1
  simp only [Res.ok.injEq] at e1
  subst e1
  refine ⟨fun m => ?_, fun m => ?_, fun k f => ?_⟩
  · rcases shrink_agree hA m with ⟨l, o1, e3, e4, h1, hl, -, -⟩ | ⟨e3, e4⟩
    · obtain ⟨o2, e5, -⟩ := solve_ok h1 sv l hl
      simp only [objStep, pySolve, e3, Res.bind, e5]
      constructor
      · intro h; cases h
      · rintro ⟨k, rfl, hk⟩
        simp only [sizeOf] at e4
        rw [if_neg (by rw [hA.cur]; omega)] at e4
        cases e4
    · simp only [objStep, pySolve, e3, Res.bind]
      cases m with
      | none => simp [sizeOf] at e4
      | some k =>
        simp only [sizeOf] at e4
        split_ifs at e4 with hk
        exact ⟨fun _ => ⟨k, rfl, by rw [← hA.cur]; omega⟩, fun _ => trivial⟩
  · rcases shrink_agree hA m with ⟨l, o1, e3, e4, h1, hl, -, -⟩ | ⟨e3, e4⟩
    · obtain ⟨o2, e5, -⟩ := onAll_agree h1 l hl (fun _ c => c)
      simp only [objStep, e3, Res.bind, e5]
      constructor
      · intro h; cases h
      · rintro ⟨k, rfl, hk⟩
        simp only [sizeOf] at e4
        rw [if_neg (by rw [hA.cur]; omega)] at e4
        cases e4
    · simp only [objStep, e3, Res.bind]
      cases m with
      | none => simp [sizeOf] at e4
      | some k =>
        simp only [sizeOf] at e4
        split_ifs at e4 with hk
        exact ⟨fun _ => ⟨k, rfl, by rw [← hA.cur]; omega⟩, fun _ => trivial⟩
  · obtain ⟨h1, h2⟩ := grow_agree hA k
    obtain ⟨o2, e5, h3⟩ := onAll_agree h1 k h2 f
    exact ⟨o2, e5, h3.cur.symm⟩

/-- **C82** (status; partial: members are not solved one by one, see `C82_status_false`): after every history of batch calls
the status of every member, and its entry in the status of the batch, is the status of the last solve it took part in. -/
theorem C82_status_partial (sv : C → C × Int) (fresh : C) (saveP : Bool) (n : Nat) (ops : List (BOp C))
    (hop : ∀ op ∈ ops, ∀ i, op ≠ .singleSolve i) (o : Obj C) (h : objRun sv fresh (objNew fresh saveP n) ops = .ok o) :
    ∃ a, famRun sv (famNew fresh n) ops = some a ∧ (∀ i s, o.solvers[i]? = some s → s.status = a.status i) ∧
      ∀ i t, o.status[i]? = some t → t = a.status i := by
  obtain ⟨a, e, -, hs⟩ := run_agreeS sv (new_agree fresh saveP n) (new_agreeS fresh saveP n) ops hop h
  exact ⟨a, e, hs.own, hs.rec'⟩

/-- **C82**, negation: a batch solve of the first solver overwrites the status of the second, which is not part of it, with
the old entry of the batch. -/
theorem C82_status_false : ∃ (sv : Int → Int × Int) (o : Obj Int) (a : Family Int),
    objRun sv 0 (objNew 0 false 2) [.change 2 (fun i _ => i), .singleSolve 1, .solve (some 1)] = .ok o ∧
    famRun sv (famNew 0 2) [.change 2 (fun i _ => i), .singleSolve 1, .solve (some 1)] = some a ∧
    a.status 1 = 4 ∧ o.solvers.map (·.status) = [0, 0] :=
  ⟨fun c => (c, 4 * c), _, _, rfl, rfl, by decide, by decide⟩

/-- **C82**, negation: solvers that are created because the batch grows do not keep the global parameters, whatever was
chosen for the batch solver. -/
theorem C82_grown_flag_false (sv : C → C × Int) (fresh : C) (saveP : Bool) (n m : Nat) (hm : n < m) (f : Nat → C → C) :
    ∃ o, objRun sv fresh (objNew fresh saveP n) [.change m f] = .ok o ∧
      (∀ i < n, ∃ s, o.solvers[i]? = some s ∧ s.saveP = saveP) ∧
      ∀ i, n ≤ i → i < m → ∃ s, o.solvers[i]? = some s ∧ s.saveP = false := by
  have e : grow fresh m (objNew fresh saveP n) = ⟨List.replicate n ⟨fresh, 0, saveP⟩ ++ List.replicate (m - n) ⟨fresh, 0, false⟩, m,
      List.replicate n 0 ++ List.replicate (m - n) 0⟩ := by
    unfold grow createMissing objNew
    simp only [List.length_replicate]
    rw [if_neg (by omega), if_pos (by omega)]
  have e2 : objRun sv fresh (objNew fresh saveP n) [.change m f] = onAll m f (grow fresh m (objNew fresh saveP n)) := rfl
  rw [e2, e]
  unfold onAll
  rw [if_neg (by simp only [List.length_append, List.length_replicate]; omega)]
  refine ⟨_, rfl, fun i hi => ?_, fun i h1 h2 => ?_⟩
  · simp only [List.getElem?_mapIdx]
    rw [List.getElem?_append_left (by simpa using hi), List.getElem?_replicate_of_lt hi]
    simp only [Option.map_some]
    exact ⟨_, rfl, by split_ifs; all_goals rfl⟩
  · simp only [List.getElem?_mapIdx]
    rw [List.getElem?_append_right (by simpa using h1), List.length_replicate, List.getElem?_replicate_of_lt (by omega)]
    simp only [Option.map_some]
    exact ⟨_, rfl, by split_ifs; all_goals rfl⟩

/-! ### Threads -/

/-- **C82** (threads; partial: more than one thread, see `C82_threads_false`): the loop runs with the requested number. -/
theorem C82_threads_partial (req icv : Nat) (h : 1 < req) : (batchThreads req icv).1 = req := by
  unfold batchThreads; rw [if_pos h]

/-- **C82**, negation: with one requested thread the loop runs with the number of threads of the process; with more, the
setting of the process is not restored but becomes one, and it is unchanged only if it was one. -/
theorem C82_threads_false (req icv : Nat) :
    (req = 1 → (batchThreads req icv).1 = icv) ∧ (1 < req → (batchThreads req icv).2 = 1) ∧
    (1 < req → ((batchThreads req icv).2 = icv ↔ icv = 1)) := by
  unfold batchThreads numThreadsSeq
  refine ⟨fun h => by rw [if_neg (by omega)], fun h => by rw [if_pos h], fun h => ?_⟩
  rw [if_pos h]
  exact eq_comm

/-- **C82**, negation: also a single solve leaves the process with one thread, or, on the returns without the call that resets
the number, with the number of this solver.  The next solver that is created, in a library without a fixed number of
threads, has this number as its default. -/
theorem C82_solve_threads_false (num icv : Nat) :
    (∀ e, solveThreads num e = 1 ∨ solveThreads num e = num) ∧
    (solveThreads num .sqp = 1 ∧ defaultThreads none (solveThreads num .sqp) = 1) ∧
    (solveThreads num .ddpEnd = num ∧ defaultThreads none (solveThreads num .ddpEnd) = num) ∧
    (∀ e m, defaultThreads (some m) (solveThreads num e) = defaultThreads (some m) icv) := by
  refine ⟨fun e => ?_, ⟨rfl, rfl⟩, ⟨rfl, rfl⟩, fun e m => rfl⟩
  cases e <;> simp [solveThreads, numThreadsSeq]

/-! ### Concrete cases -/

/-- two stages, two states, one input, one algebraic variable -/
def dB : PDims := { N := 1, nx := fun _ => 2, nu := fun k => if k = 0 then 1 else 0, nz := fun _ => 1, ns := fun k => k,
                    ni := fun _ => 1, np := fun _ => 3 }

def capB : Cap Int Unit := ⟨fun _ => 0, fun _ => 0, fun _ _ => 1, fun _ _ => 0, fun _ _ => 0, fun _ => false, ()⟩

/-- the states of two solvers are set in the wrong order of the iterations: `[5, 6]` and `[7, 8]` -/
example : ∃ acts sched, cSet (R := Unit) dB 1 (.out .x) (fun q => (5 + q : Int)) 4 2 = some acts ∧ Interleaves acts sched ∧
    pySet dB 1 (.out .x) [7, 8] capB = some (exec sched (fun _ => capB) 1) ∧
    (exec sched (fun _ => capB) 1).out (.ux, 1, 1) = 8 ∧ (exec sched (fun _ => capB) 0).out (.ux, 1, 1) = 6 := by
  refine ⟨_, [fun caps => Function.update caps 1 (setOut dB 1 .x (fun j => 5 + ((1 * 2 + j : Nat) : Int)) (caps 1)),
    fun caps => Function.update caps 0 (setOut dB 1 .x (fun j => 5 + ((0 * 2 + j : Nat) : Int)) (caps 0))], rfl, ?_, rfl, rfl, rfl⟩
  refine .step _ 1 _ [] _ rfl (.step _ 0 _ [] _ rfl (.done _ fun i => ?_))
  match i with
  | 0 => rfl
  | 1 => rfl
  | i + 2 => simp [loop]

/-- a history: the batch grows from one to three solvers, all are solved, then only the first -/
example : ∃ (o : Obj Int), objRun (fun c => (c + 1, c)) 0 (objNew 0 true 1)
      [.change 3 (fun i _ => 10 * i), .solve none, .solve (some 1), .read none] = .ok o ∧
    o.solvers.map (·.cap) = [2, 11, 21] ∧ o.solvers.map (·.status) = [1, 10, 20] ∧ o.solvers.map (·.saveP) = [true, false, false] ∧
    o.cur = 1 :=
  ⟨_, rfl, by decide, by decide, by decide, rfl⟩

/-- adjoints of two solvers for two seeds: a schedule exists, the last entry is that of the last solver and seed -/
example (scheds : Nat → List ((Nat → Int) → Nat → Int))
    (h : ∀ s, Interleaves (adjLoop 2 2 3 (fun i s j => ((100 * i + 10 * s + j : Nat) : Int)) s) (scheds s)) :
    (List.range 2).foldl (fun (a : Nat → Int) s => exec (scheds s) a) (fun _ => 0) 11 = 112 :=
  C82_adjoint 2 2 3 (fun i s j => ((100 * i + 10 * s + j : Nat) : Int)) scheds h (fun _ => 0) 1 1 2 (by decide) (by decide) (by decide)

end Acados.Batch
