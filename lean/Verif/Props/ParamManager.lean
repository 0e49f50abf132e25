import Verif.Lemmas.ParamManager
import Mathlib.Algebra.Order.Ring.Rat
/-!
# C89: management of parameters

Values are got as they were set, and the vector of all values has the layout of the vector of all symbols.
-/
namespace Acados.ParamManager
variable {ν K : Type} [DecidableEq ν]

/-- two matrices for the examples -/
def exHeap : Nat → Val ℚ
  | 0 => ⟨2, 2, [1, 2, 3, 4]⟩
  | _ => ⟨1, 1, [9]⟩

def exParams : List (Nat × Nat) := [(10, 0), (20, 1)]

/-- creation: every stage up to the horizon has the default values -/
theorem C89_init (heap : Nat → Val K) (next : Nat) (params : List (ν × Nat)) (N : Nat) (hn : (params.map (·.1)).Nodup)
    (hr : ∀ e ∈ params, e.2 < next) (e : ν × Nat) (he : e ∈ params) (i : Nat) (hi : i ≤ N) :
    getValue (init heap next params N) e.1 (i : Int) = some (heap e.2) := by
  obtain ⟨_, _, _, h4, _, _, _, h8⟩ := init_props heap next params N hn hr
  rw [getValue_eq _ _ _ (by rw [h4]; exact hi)]
  exact h8 e he i hi

example : (exParams.map (·.1)).Nodup ∧ (∀ e ∈ exParams, e.2 < 2)
    ∧ getValue (init exHeap 2 exParams 3) 10 3 = some ⟨2, 2, [1, 2, 3, 4]⟩ := by decide +kernel

/-- setting a value: refused exactly for stages outside the horizon, otherwise the value is got again at this stage under this name, and
nothing else changes; after any history -/
theorem C89_set (heap : Nat → Val K) (next : Nat) (params : List (ν × Nat)) (N : Nat) (hn : (params.map (·.1)).Nodup)
    (hr : ∀ e ∈ params, e.2 < next) (l : List (Op ν K)) (name : ν) (v : Val K) (stage : Int) :
    let s := run (init heap next params N) l
    (setRef (alloc s v) name s.next stage = none ↔ stage < 0 ∨ (s.N : Int) < stage)
    ∧ ∀ s', setRef (alloc s v) name s.next stage = some s' → s'.N = s.N ∧ getValue s' name stage = some v
      ∧ ∀ (m : ν) (k : Nat), k ≤ s.N → ((k : Int) ≠ stage ∨ m ≠ name) → getValue s' m (k : Int) = getValue s m (k : Int) := by
  intro s
  have hw : Wf s := run_wf (init_props heap next params N hn hr).1 l
  by_cases h : stage < 0 ∨ (s.N : Int) < stage
  · have e := setRef_none (alloc s v) name s.next stage h
    exact ⟨⟨fun _ => h, fun _ => e⟩, fun s' h' => by rw [e] at h'; cases h'⟩
  · have e := setRef_eq hw name v stage.toNat (by omega)
    have es : ((stage.toNat : Nat) : Int) = stage := by omega
    rw [es] at e
    refine ⟨⟨fun h' => (by rw [e] at h'; cases h'), fun h' => absurd h' h⟩, ?_⟩
    intro s' h'
    rw [e] at h'
    cases h'
    refine ⟨rfl, ?_, ?_⟩
    · have := getValue_eq (setSt s name v stage.toNat) name stage.toNat (by show stage.toNat ≤ s.N; omega)
      rw [es] at this
      rw [this, set_look hw name v _ (by omega), if_pos ⟨rfl, rfl⟩]
    · intro m k hk hne
      rw [getValue_eq _ _ _ (by show k ≤ s.N; exact hk), getValue_eq _ _ _ hk, set_look hw name v _ (by omega), if_neg]
      rintro ⟨h1, h2⟩
      rcases hne with hne | hne
      · omega
      · exact hne h2

example : let s := run (init exHeap 2 exParams 3) [.horizon 2]
    (setRef (alloc s ⟨1, 1, [7]⟩) 20 s.next 3).isNone = true
    ∧ (setRef (alloc s ⟨1, 1, [7]⟩) 20 s.next 2).map (fun s' => getValue s' 20 2) = some (some ⟨1, 1, [7]⟩) := by decide +kernel

/-- histories: if the horizon is changed freely before any value is set, and does not grow afterwards, every value is the last one set at
its stage, or the default -/
theorem C89_history_partial (heap : Nat → Val K) (next : Nat) (params : List (ν × Nat)) (N : Nat) (hn : (params.map (·.1)).Nodup)
    (hr : ∀ e ∈ params, e.2 < next) (l l' : List (Op ν K)) (hl : OnlyHorizon l) (hl' : NoGrowth (horizonAfter N l) l')
    (dflt : ν → Val K) (hdef : ∀ e ∈ params, dflt e.1 = heap e.2) (i : Nat) (hi : i ≤ horizonAfter (horizonAfter N l) l')
    (e : ν × Nat) (he : e ∈ params) :
    getValue (run (init heap next params N) (l ++ l')) e.1 (i : Int)
      = some (tableAfter (horizonAfter N l) (fun _ => dflt) l' i e.1) := by
  obtain ⟨h1, h2, h3, h4, h5, h6, _, h8⟩ := init_props heap next params N hn hr
  have hw1 := run_wf h1 l
  obtain ⟨_, _, _, r4⟩ := run_syms h1 l
  rw [h4] at r4
  have hd := run_default h1 (by
    intro x hx k hk
    rw [h2] at hx
    rw [h6 _ (hr x hx)]
    exact h8 x hx k (by rw [h5] at hk; omega)) l hl
  have ht := run_table hw1 (fun _ => dflt) (params.map (·.1)) (by
    intro k hk m hm
    obtain ⟨x, hx, rfl⟩ := List.mem_map.1 hm
    have := hd x (by rw [h2]; exact hx) k (by have := hw1.len; omega)
    rw [h6 _ (hr x hx), ← hdef x hx] at this
    exact this) l' (by rw [r4]; exact hl')
  rw [run_append]
  have hN := (run_syms hw1 l').2.2.2
  rw [r4] at hN
  rw [getValue_eq _ _ _ (by rw [hN]; exact hi)]
  have := ht i (by rw [hN]; exact hi) e.1 (List.mem_map.2 ⟨e, he, rfl⟩)
  rw [r4] at this
  exact this

example : OnlyHorizon ([.horizon 5, .horizon (-1), .horizon 3] : List (Op Nat ℚ))
    ∧ NoGrowth (horizonAfter 0 ([.horizon 5, .horizon (-1), .horizon 3] : List (Op Nat ℚ)))
      ([.set 20 ⟨1, 1, [7]⟩ 3, .horizon 3, .set 20 ⟨1, 1, [8]⟩ 1] : List (Op Nat ℚ))
    ∧ (List.range 4).map (fun i : Nat => getValue (run (init exHeap 2 exParams 0) ([.horizon 5, .horizon (-1), .horizon 3]
      ++ [.set 20 ⟨1, 1, [7]⟩ 3, .horizon 3, .set 20 ⟨1, 1, [8]⟩ 1])) 20 (i : Int))
      = [some ⟨1, 1, [9]⟩, some ⟨1, 1, [8]⟩, some ⟨1, 1, [9]⟩, some ⟨1, 1, [7]⟩] := by
  refine ⟨?_, ?_, by decide +kernel⟩
  · intro o ho
    simp only [List.mem_cons, List.not_mem_nil, or_false] at ho
    rcases ho with rfl | rfl | rfl <;> exact ⟨_, rfl⟩
  · refine ⟨by decide, by decide, by decide, trivial⟩

/-- changing the horizon, after any history: stages before the old and up to the new end keep their values, stages from the old end up to
the stage before the new end get the defaults; negative lengths are refused -/
theorem C89_horizon (heap : Nat → Val K) (next : Nat) (params : List (ν × Nat)) (N : Nat) (hn : (params.map (·.1)).Nodup)
    (hr : ∀ e ∈ params, e.2 < next) (l : List (Op ν K)) (n : Int) :
    let s := run (init heap next params N) l
    (setHorizon s n = none ↔ n < 0)
    ∧ ∀ s', setHorizon s n = some s' → (s'.N : Int) = n ∧ ∀ e ∈ params, ∀ i : Nat, (i : Int) ≤ n →
      ((i < s.N ∨ (i = s.N ∧ n = s.N)) → getValue s' e.1 (i : Int) = getValue s e.1 (i : Int))
      ∧ (s.N ≤ i ∧ (i : Int) < n → getValue s' e.1 (i : Int) = some (heap e.2)) := by
  intro s
  obtain ⟨h1, h2, _, _, _, h6, _, _⟩ := init_props heap next params N hn hr
  have hw : Wf s := run_wf h1 l
  obtain ⟨_, r2, r3, _⟩ := run_syms h1 l
  by_cases h : n < 0
  · have e : setHorizon s n = none := by
      unfold setHorizon
      rw [if_pos h]
    exact ⟨⟨fun _ => h, fun _ => e⟩, fun s' h' => by rw [e] at h'; cases h'⟩
  · have e := setHorizon_eq hw n.toNat
    have en : ((n.toNat : Nat) : Int) = n := by omega
    rw [en] at e
    refine ⟨⟨fun h' => (by rw [e] at h'; cases h'), fun h' => absurd h' h⟩, ?_⟩
    intro s' h'
    rw [e] at h'
    cases h'
    refine ⟨en, ?_⟩
    intro x hx i hi
    have hl := hw.len
    have hg := getValue_eq (horizonSt s n.toNat) x.1 i (by show i ≤ n.toNat; omega)
    rw [hg, horizon_look hw n.toNat i x.1 (by omega)]
    constructor
    · intro hc
      rw [if_neg (by omega), if_pos (by omega), getValue_eq _ _ _ (by omega)]
    · intro hc
      rw [if_pos (by omega)]
      have hp : s.params = params := by rw [show s.params = (run (init heap next params N) l).params from rfl, r2, h2]
      have hd := dget_of_mem hw.pnodup (show (x.1, x.2) ∈ s.params by rw [hp]; exact hx)
      rw [hd]
      show some (s.heap x.2) = _
      rw [show s.heap x.2 = heap x.2 from (r3 x (by rw [h2]; exact hx)).trans (h6 _ (hr x hx))]

example : let s := run (init exHeap 2 exParams 2) [.set 20 ⟨1, 1, [7]⟩ 1]
    (setHorizon s 4).map (fun s' => (List.range 5).map fun i : Nat => getValue s' 20 (i : Int))
      = some [some ⟨1, 1, [9]⟩, some ⟨1, 1, [7]⟩, some ⟨1, 1, [9]⟩, some ⟨1, 1, [9]⟩, some ⟨1, 1, [9]⟩] := by decide +kernel

/-- a longer horizon: the value set at the terminal stage is lost, and the new terminal stage does not get the default but the value of
the first stage, or a value set when the horizon was longer before -/
theorem C89_growth_false : ∃ (heap : Nat → Val ℚ) (v : Val ℚ), heap 0 ≠ v
    ∧ getValue (run (init heap 1 [(10, 0)] 1) [.set 10 v 1]) 10 1 = some v
    ∧ getValue (run (init heap 1 [(10, 0)] 1) [.set 10 v 1, .horizon 2]) 10 1 = some (heap 0)
    ∧ getValue (run (init heap 1 [(10, 0)] 1) [.set 10 v 0, .horizon 2]) 10 2 = some v
    ∧ getValue (run (init heap 1 [(10, 0)] 2) [.set 10 v 2, .horizon 1, .horizon 2]) 10 2 = some v :=
  ⟨fun _ => ⟨1, 1, [9]⟩, ⟨1, 1, [7]⟩, by decide +kernel, by decide +kernel, by decide +kernel, by decide +kernel, by decide +kernel⟩

/-- layout: after any history of sets with known names and the sizes of the symbols and of changes of the horizon, the vector of a stage
has the size of the vector of symbols, and the entries of each symbol are those of the value of its name at this stage -/
theorem C89_layout (heap : Nat → Val K) (next : Nat) (params : List (ν × Nat)) (N : Nat) (hn : (params.map (·.1)).Nodup)
    (hr : ∀ e ∈ params, e.2 < next) (hs : ∀ e ∈ params, (heap e.2).vec.length = (heap e.2).rows * (heap e.2).cols)
    (l : List (Op ν K)) :
    let s := run (init heap next params N) l
    s.syms = params.map (fun p => (p.1, (heap p.2).rows, (heap p.2).cols))
    ∧ ((∀ o ∈ l, Fits s.syms o) → ∀ i : Nat, i ≤ s.N → ∃ p, pValues s (i : Int) = some p ∧ p.length = total s.syms
      ∧ ∀ t ∈ s.syms, ∃ v, getValue s t.1 (i : Int) = some v ∧ (p.drop (offset t.1 s.syms)).take (t.2.1 * t.2.2) = v.vec) := by
  intro s
  obtain ⟨h1, h2, h3, h4, _, _, h7, _⟩ := init_props heap next params N hn hr
  have hw : Wf s := run_wf h1 l
  have hsy : s.syms = (init heap next params N).syms := (run_syms h1 l).1
  refine ⟨hsy.trans h3, ?_⟩
  intro hf i hi
  have hlay : Lay s := run_lay h1 (h7 hs) l (fun o ho => by rw [← hsy]; exact hf o ho)
  have hl := hw.len
  have hlt : i < s.values.length := by omega
  have hgd : s.values.getD i [] = s.values[i] := by
    rw [List.getD_eq_getElem?_getD, List.getElem?_eq_getElem hlt]
    rfl
  have hm := List.getElem_mem hlt
  obtain ⟨a, b⟩ := slice s.heap s.values[i] s.syms (hlay.keys _ hm) hlay.nodup (hlay.size _ hm)
  refine ⟨_, pValues_eq s i hi hw, by rw [hgd]; exact a, ?_⟩
  intro t ht
  obtain ⟨r, hr1, hr2⟩ := b t ht
  refine ⟨s.heap r, ?_, by rw [hgd]; exact hr2⟩
  rw [getValue_eq _ _ _ hi]
  unfold look
  rw [List.getElem?_eq_getElem hlt]
  show Option.map s.heap (dget s.values[i] t.1) = _
  rw [hr1]
  rfl

/-- the flat vector has the vectors of all stages one after the other -/
theorem C89_flat (heap : Nat → Val K) (next : Nat) (params : List (ν × Nat)) (N : Nat) (hn : (params.map (·.1)).Nodup)
    (hr : ∀ e ∈ params, e.2 < next) (hs : ∀ e ∈ params, (heap e.2).vec.length = (heap e.2).rows * (heap e.2).cols)
    (l : List (Op ν K)) (hf : ∀ o ∈ l, Fits (params.map (fun p => (p.1, (heap p.2).rows, (heap p.2).cols))) o) :
    let s := run (init heap next params N) l
    ∃ p, pFlat s = some p ∧ p.length = (s.N + 1) * total s.syms
      ∧ ∀ i : Nat, i ≤ s.N → pValues s (i : Int) = some ((p.drop (i * total s.syms)).take (total s.syms)) := by
  intro s
  obtain ⟨h1, _⟩ := init_props heap next params N hn hr
  have hw : Wf s := run_wf h1 l
  obtain ⟨hsy, hlay⟩ := C89_layout heap next params N hn hr hs l
  have hlay := hlay (fun o ho => by rw [hsy]; exact hf o ho)
  have hv := fun i hi => pValues_eq s i hi hw
  have hm := mapM_some (List.range (s.N + 1)) (fun i : Nat => pValues s (i : Int))
    (fun i => ((s.values.getD i []).map fun e => (s.heap e.2).vec).flatten)
    (fun i hi => hv i (by rw [List.mem_range] at hi; omega))
  have hlen : ∀ x ∈ (List.range (s.N + 1)).map (fun i => ((s.values.getD i []).map fun e => (s.heap e.2).vec).flatten),
      x.length = total s.syms := by
    intro x hx
    obtain ⟨i, hi, rfl⟩ := List.mem_map.1 hx
    have hi : i ≤ s.N := by rw [List.mem_range] at hi; omega
    obtain ⟨p, hp1, hp2, _⟩ := hlay i hi
    have hp1 : pValues s (i : Int) = some p := hp1
    rw [hv i hi] at hp1
    rw [Option.some.inj hp1]
    exact hp2
  obtain ⟨b1, b2⟩ := block _ (total s.syms) hlen
  refine ⟨_, by unfold pFlat; rw [hm]; rfl, ?_, ?_⟩
  · rw [b1, List.length_map, List.length_range]
  · intro i hi
    rw [hv i hi, b2 i _ (by rw [List.getElem?_map, List.getElem?_range (by omega)]; rfl)]

example : (∀ e ∈ exParams, (exHeap e.2).vec.length = (exHeap e.2).rows * (exHeap e.2).cols)
    ∧ pValues (run (init exHeap 2 exParams 1) [.set 20 ⟨1, 1, [7]⟩ 1]) 1 = some [1, 2, 3, 4, 7]
    ∧ pFlat (run (init exHeap 2 exParams 1) [.set 20 ⟨1, 1, [7]⟩ 1]) = some [1, 2, 3, 4, 9, 1, 2, 3, 4, 7] := by decide +kernel

example : ∀ o ∈ ([.set 20 ⟨1, 1, [7]⟩ 1, .horizon 4] : List (Op Nat ℚ)),
    Fits (exParams.map (fun p => (p.1, (exHeap p.2).rows, (exHeap p.2).cols))) o := by
  intro o ho
  simp only [List.mem_cons, List.not_mem_nil, or_false] at ho
  rcases ho with rfl | rfl
  · exact ⟨1, 1, by decide, by decide⟩
  · trivial

/-- sizes and names are not checked: a value of another size moves the entries of later symbols, an unknown name makes the vector longer
than that of the symbols -/
theorem C89_layout_false : ∃ (heap : Nat → Val ℚ) (s s' : St Nat ℚ), s = run (init heap 2 [(10, 0), (20, 1)] 0) [.set 10 ⟨2, 1, [5, 6]⟩ 0]
    ∧ s' = run (init heap 2 [(10, 0), (20, 1)] 0) [.set 30 ⟨1, 1, [5]⟩ 0]
    ∧ total s.syms = 2 ∧ pValues s 0 = some [5, 6, 9] ∧ getValue s 20 0 = some ⟨1, 1, [9]⟩ ∧ offset 20 s.syms = 1
    ∧ pValues s' 0 = some [9, 9, 5] ∧ total s'.syms = 2 :=
  ⟨fun _ => ⟨1, 1, [9]⟩, _, _, rfl, rfl, by decide +kernel, by decide +kernel, by decide +kernel, by decide +kernel, by decide +kernel, by decide +kernel⟩

/-- in place: if the horizon is given at creation, changing the array got for a name and a stage changes this value only -/
theorem C89_in_place_partial (heap : Nat → Val K) (next : Nat) (params : List (ν × Nat)) (N : Nat) (hn : (params.map (·.1)).Nodup)
    (hr : ∀ e ∈ params, e.2 < next) (hd : (params.map (·.2)).Nodup) (name : ν) (i : Nat) (r : Nat) (v : Val K)
    (hget : getRef (init heap next params N) name (i : Int) = some r) :
    getValue (inPlace (init heap next params N) r v) name (i : Int) = some v
    ∧ ∀ (m : ν) (k : Nat), k ≠ i ∨ m ≠ name → getValue (inPlace (init heap next params N) r v) m (k : Int)
      = getValue (init heap next params N) m (k : Int) := by
  have hsep := init_sep heap next params N hn hr hd
  generalize init heap next params N = s at hget hsep
  have href : ∀ (m : ν) (k : Int), getRef (inPlace s r v) m k = getRef s m k := fun _ _ => rfl
  constructor
  · unfold getValue
    rw [href, hget]
    show some (if r = r then v else s.heap r) = _
    rw [if_pos rfl]
  · intro m k hne
    unfold getValue
    rw [href]
    cases hk : getRef s m (k : Int) with
    | none => rfl
    | some r' =>
      show some (if r' = r then v else s.heap r') = some (s.heap r')
      rw [if_neg]
      rintro rfl
      have dict : ∀ (q : ν) (j : Nat), getRef s q (j : Int) = some r' → ∃ d, s.values[j]? = some d ∧ dget d q = some r' := by
        intro q j hq
        unfold getRef dictAt at hq
        split at hq
        · cases hq
        · rw [Int.toNat_natCast] at hq
          cases hv : s.values[j]? with
          | none => rw [hv] at hq; cases hq
          | some d => rw [hv] at hq; exact ⟨d, rfl, hq⟩
      obtain ⟨d, a1, a2⟩ := dict name i hget
      obtain ⟨d', b1, b2⟩ := dict m k hk
      have := hsep i k name m r' d d' a1 b1 a2 b2
      rcases hne with h | h
      · exact h this.1.symm
      · exact h this.2.symm

example : (exParams.map (·.2)).Nodup ∧ (getRef (init exHeap 2 exParams 2) 20 1).isSome = true := by decide +kernel

/-- otherwise arrays are shared: after a longer horizon was set all stages from the old end up to the stage before the new end have one
array, so that changing the value of one stage in place changes the others; and an array given by the user is not copied -/
theorem C89_in_place_false :
    (∃ (heap : Nat → Val ℚ) (s : St Nat ℚ) (r : Nat) (v : Val ℚ), s = run (init heap 1 [(10, 0)] 0) [.horizon 3]
      ∧ getRef s 10 0 = some r ∧ getValue s 10 1 ≠ some v ∧ getValue (inPlace s r v) 10 1 = some v)
    ∧ ∃ (heap : Nat → Val ℚ) (s s' : St Nat ℚ) (r : Nat) (v w : Val ℚ), s = alloc (init heap 1 [(10, 0)] 1) v ∧ r = 2 ∧ s.heap r = v
      ∧ setRef s 10 r 0 = some s' ∧ v ≠ w ∧ getValue s' 10 0 = some v ∧ getValue (inPlace s' r w) 10 0 = some w := by
  constructor
  · exact ⟨fun _ => ⟨1, 1, [9]⟩, _, 0, ⟨1, 1, [7]⟩, rfl, by decide +kernel, by decide +kernel, by decide +kernel⟩
  · exact ⟨fun _ => ⟨1, 1, [9]⟩, _, _, 2, ⟨1, 1, [7]⟩, ⟨1, 1, [8]⟩, rfl, rfl, by decide +kernel, rfl, by decide +kernel, by decide +kernel,
      by decide +kernel⟩

end Acados.ParamManager
