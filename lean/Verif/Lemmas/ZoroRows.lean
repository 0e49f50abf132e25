import Verif.Lemmas.ZoroRiccati
/-! The weighted rows of the barrier modes. -/
namespace Acados.Zoro
open Matrix
set_option linter.unusedSectionVars false
variable {K : Type*} [Field K] [LinearOrder K] {d : Dims}

theorem gram_bil {a b : Nat} (n : Nat) (f : Nat → Fin a → K) (g : Nat → Fin b → K) (u : Fin a → K) (x : Fin b → K) :
    u ⬝ᵥ (gram n f g *ᵥ x) = ∑ r ∈ Finset.range n, (f r ⬝ᵥ u) * (g r ⬝ᵥ x) := by
  simp only [dotProduct, mulVec, gram, Finset.sum_mul, Finset.mul_sum]
  have e : ∀ i : Fin a, (∑ j : Fin b, ∑ r ∈ Finset.range n, u i * (f r i * g r j * x j))
      = ∑ r ∈ Finset.range n, ∑ j : Fin b, u i * (f r i * g r j * x j) := fun i => Finset.sum_comm
  rw [Finset.sum_congr rfl fun i _ => e i, Finset.sum_comm]
  refine Finset.sum_congr rfl fun r _ => ?_
  rw [Finset.sum_comm]
  refine Finset.sum_congr rfl fun j _ => Finset.sum_congr rfl fun i _ => ?_
  ring

theorem gram_sym {a : Nat} (n : Nat) (f : Nat → Fin a → K) (w : Nat → K) (g : Nat → Fin a → K)
    (h : ∀ r < n, g r = w r • f r) : Sym (gram n f g) := by
  funext i j
  show gram n f g j i = gram n f g i j
  unfold gram
  refine Finset.sum_congr rfl fun r hr => ?_
  rw [h r (Finset.mem_range.mp hr)]
  simp only [Pi.smul_apply, smul_eq_mul]; ring

theorem sum_rows {α : Type*} (l : List α) (h : Nat → K) (H : α → K)
    (e : ∀ r (hr : r < l.length), h r = H l[r]) : ∑ r ∈ Finset.range l.length, h r = (l.map H).sum := by
  induction l generalizing h with
  | nil => rfl
  | cons a l ih =>
    rw [List.length_cons, Finset.sum_range_succ', List.map_cons, List.sum_cons, add_comm]
    have := ih (fun r => h (r + 1)) (fun r hr => by
      have := e (r + 1) (by simpa using hr)
      simpa using this)
    rw [this]
    have h0 := e 0 (by simp)
    simp only [List.getElem_cons_zero] at h0
    rw [h0]

theorem kinds_sum (rows : List (Row d)) (H : Row d → K) :
    ((ofKind rows .bu ++ ofKind rows .bx ++ ofKind rows .g ++ ofKind rows .h).map H).sum = (rows.map H).sum := by
  simp only [List.map_append, List.sum_append]
  induction rows with
  | nil => simp [ofKind]
  | cons r rows ih =>
    rw [List.map_cons, List.sum_cons, ← ih]
    cases r <;> simp [ofKind, Row.kind] <;> ring

theorem kinds_sumE (rows : List (RowE d)) (H : RowE d → K) :
    ((ofKindE rows .bx ++ ofKindE rows .g ++ ofKindE rows .h).map H).sum = (rows.map H).sum := by
  simp only [List.map_append, List.sum_append]
  induction rows with
  | nil => simp [ofKindE]
  | cons r rows ih =>
    rw [List.map_cons, List.sum_cons, ← ih]
    cases r <;> simp [ofKindE, RowE.kind] <;> ring

theorem rowsOf_sum (ds : Desc K d) (H : Bool × Row d → K) :
    ((rowsOf ds).map H).sum = (ds.loT.map fun r => H (true, r)).sum + (ds.hiT.map fun r => H (false, r)).sum := by
  unfold rowsOf
  rw [List.map_append, List.sum_append, List.map_map, List.map_map]
  exact congrArg₂ _ (kinds_sum ds.loT _) (kinds_sum ds.hiT _)

theorem rowsOfE_sum (ds : Desc K d) (H : Bool × RowE d → K) :
    ((rowsOfE ds).map H).sum = (ds.loTE.map fun r => H (true, r)).sum + (ds.hiTE.map fun r => H (false, r)).sum := by
  unfold rowsOfE
  rw [List.map_append, List.sum_append, List.map_map, List.map_map]
  exact congrArg₂ _ (kinds_sumE ds.loTE _) (kinds_sumE ds.hiTE _)

theorem mem_kinds (rows : List (Row d)) (r : Row d) :
    r ∈ ofKind rows .bu ++ ofKind rows .bx ++ ofKind rows .g ++ ofKind rows .h ↔ r ∈ rows := by
  simp only [List.mem_append, ofKind, List.mem_filter]
  cases r <;> simp [Row.kind]

theorem mem_kindsE (rows : List (RowE d)) (r : RowE d) :
    r ∈ ofKindE rows .bx ++ ofKindE rows .g ++ ofKindE rows .h ↔ r ∈ rows := by
  simp only [List.mem_append, ofKindE, List.mem_filter]
  cases r <;> simp [RowE.kind]

theorem mem_rowsOf (ds : Desc K d) (p : Bool × Row d) :
    p ∈ rowsOf ds ↔ (p.1 = true ∧ p.2 ∈ ds.loT) ∨ (p.1 = false ∧ p.2 ∈ ds.hiT) := by
  obtain ⟨b, r⟩ := p
  unfold rowsOf
  rw [List.mem_append, List.mem_map, List.mem_map]
  simp only [mem_kinds]
  cases b <;> simp

theorem mem_rowsOfE (ds : Desc K d) (p : Bool × RowE d) :
    p ∈ rowsOfE ds ↔ (p.1 = true ∧ p.2 ∈ ds.loTE) ∨ (p.1 = false ∧ p.2 ∈ ds.hiTE) := by
  obtain ⟨b, r⟩ := p
  unfold rowsOfE
  rw [List.mem_append, List.mem_map, List.mem_map]
  simp only [mem_kindsE]
  cases b <;> simp

section
variable (sq : K → K) (ds : Desc K d) (rd : RDesc K d) (m : Mem K d) (l : Lin K d) (q : QpB K d)

/-- weight used for a row -/
def wOf (k : Nat) (p : Bool × Row d) : K :=
  weight sq rd (nominal sq p.1 (q.lo k p.2) (q.hi k p.2) (m.bsq k p.2)) (m.bsq k p.2)

def wOfE (p : Bool × RowE d) : K :=
  weight sq rd (nominal sq p.1 (q.loE p.2) (q.hiE p.2) (m.bsqE p.2)) (m.bsqE p.2)

theorem overRows_spec (k : Nat) (ps : List (Bool × Row d)) (hp : ∀ p ∈ ps, p.2.kind ≠ .h) (ir : Nat) (s : Work K d) :
    (overRows (quadRow sq rd m l q k) ir ps s).dct = s.dct ∧
    (∀ j < ir, (overRows (quadRow sq rd m l q k) ir ps s).sc j = s.sc j) ∧
    ∀ i (hi : i < ps.length), (overRows (quadRow sq rd m l q k) ir ps s).sc (ir + i)
      = ⟨wOf sq rd m q k ps[i] • (s.sc (ir + i)).u, wOf sq rd m q k ps[i] • (s.sc (ir + i)).x⟩ := by
  induction ps generalizing ir s with
  | nil => exact ⟨rfl, fun _ _ => rfl, fun i hi => absurd hi (Nat.not_lt_zero i)⟩
  | cons p ps ih =>
    have e : quadRow sq rd m l q k s ir p
        = { s with sc := Function.update s.sc ir ⟨wOf sq rd m q k p • (s.sc ir).u, wOf sq rd m q k p • (s.sc ir).x⟩ } := by
      have := hp p (by simp)
      obtain ⟨b, r⟩ := p
      cases r with
      | bu i => rfl
      | bx i => rfl
      | g i => rfl
      | h i => exact absurd rfl this
    obtain ⟨a1, a2, a3⟩ := ih (fun p hm => hp p (by simp [hm])) (ir + 1) (quadRow sq rd m l q k s ir p)
    show _ ∧ _ ∧ _
    simp only [overRows]
    refine ⟨a1.trans (by rw [e]), fun j hj => (a2 j (by omega)).trans (by rw [e]; simp [Function.update_of_ne (show j ≠ ir by omega)]),
      fun i hi => ?_⟩
    cases i with
    | zero =>
      simp only [Nat.add_zero]
      rw [a2 ir (by omega), e]
      simp
    | succ i =>
      have h := a3 i (by simpa using hi)
      rw [show ir + (i + 1) = ir + 1 + i by omega, h, e]
      simp [Function.update_of_ne (show ir + 1 + i ≠ ir by omega)]

/-- gradient of a terminal row given the entry found in the memory -/
def gE (p : Bool × RowE d) (v : Fin d.nx → K) : Fin d.nx → K :=
  match p.2 with
  | .h i => l.Che i
  | _ => v

theorem overRowsE_spec (ps : List (Bool × RowE d)) (ir : Nat) (s : WorkE K d) :
    ((∀ j < ir, (overRows (quadRowE sq rd m l q) ir ps s).dct j = s.dct j) ∧
    (∀ j < ir, (overRows (quadRowE sq rd m l q) ir ps s).sc j = s.sc j)) ∧
    ∀ i (hi : i < ps.length), (overRows (quadRowE sq rd m l q) ir ps s).dct (ir + i) = gE l ps[i] (s.dct (ir + i)) ∧
      (overRows (quadRowE sq rd m l q) ir ps s).sc (ir + i)
      = wOfE sq rd m q ps[i] • gE l ps[i] (s.sc (ir + i)) := by
  induction ps generalizing ir s with
  | nil => exact ⟨⟨fun _ _ => rfl, fun _ _ => rfl⟩, fun i hi => absurd hi (Nat.not_lt_zero i)⟩
  | cons p ps ih =>
    have e1 : (quadRowE sq rd m l q s ir p).dct = Function.update s.dct ir (gE l p (s.dct ir)) := by
      obtain ⟨b, r⟩ := p
      cases r <;> simp [quadRowE, gE]
    have e2 : (quadRowE sq rd m l q s ir p).sc = Function.update s.sc ir (wOfE sq rd m q p • gE l p (s.sc ir)) := by
      obtain ⟨b, r⟩ := p
      cases r <;> simp [quadRowE, gE, wOfE]
    obtain ⟨⟨a1, a2⟩, a3⟩ := ih (ir + 1) (quadRowE sq rd m l q s ir p)
    simp only [overRows]
    refine ⟨⟨fun j hj => (a1 j (by omega)).trans (by rw [e1, Function.update_of_ne (show j ≠ ir by omega)]),
      fun j hj => (a2 j (by omega)).trans (by rw [e2, Function.update_of_ne (show j ≠ ir by omega)])⟩, fun i hi => ?_⟩
    cases i with
    | zero =>
      simp only [Nat.add_zero]
      rw [a1 ir (by omega), a2 ir (by omega), e1, e2]
      simp
    | succ i =>
      have h := a3 i (by simpa using hi)
      rw [show ir + (i + 1) = ir + 1 + i by omega, h.1, h.2, e1, e2]
      simp [Function.update_of_ne (show ir + 1 + i ≠ ir by omega)]

theorem wOf_lo (k : Nat) (r : Row d) (hm : rd.mode ≠ .const) : wOf sq rd m q k (true, r)
    = barrierWeight rd.mode rd.tau (slackLo (q.lo k r) (sq (m.bsq k r))) (sq (m.bsq k r)) := by
  unfold wOf weight nominal barrierWeight slackLo
  simp only [if_true]
  cases h : rd.mode with
  | const => exact absurd h hm
  | barrier1 => simp only [if_true]; congr 1; ring
  | barrier2 =>
    simp only [reduceCtorEq, if_false]
    rw [show q.lo k r - sq (m.bsq k r) = -(sq (m.bsq k r) - q.lo k r) by ring, neg_one_mul, neg_div_neg_eq, div_div]
    congr 1; ring

theorem wOf_hi (k : Nat) (r : Row d) (hm : rd.mode ≠ .const) : wOf sq rd m q k (false, r)
    = barrierWeight rd.mode rd.tau (slackHi (q.hi k r) (sq (m.bsq k r))) (sq (m.bsq k r)) := by
  unfold wOf weight nominal barrierWeight slackHi
  simp only [Bool.false_eq_true, if_false]
  cases h : rd.mode with
  | const => exact absurd h hm
  | barrier1 => simp only [if_true]; congr 1; ring
  | barrier2 =>
    simp only [reduceCtorEq, if_false]
    rw [show -q.hi k r - sq (m.bsq k r) = -(q.hi k r + sq (m.bsq k r)) by ring, neg_one_mul, neg_div_neg_eq, div_div]
    congr 1; ring

theorem wOfE_lo (r : RowE d) (hm : rd.mode ≠ .const) : wOfE sq rd m q (true, r)
    = barrierWeight rd.mode rd.tau (slackLo (q.loE r) (sq (m.bsqE r))) (sq (m.bsqE r)) := by
  unfold wOfE weight nominal barrierWeight slackLo
  simp only [if_true]
  cases h : rd.mode with
  | const => exact absurd h hm
  | barrier1 => simp only [if_true]; congr 1; ring
  | barrier2 =>
    simp only [reduceCtorEq, if_false]
    rw [show q.loE r - sq (m.bsqE r) = -(sq (m.bsqE r) - q.loE r) by ring, neg_one_mul, neg_div_neg_eq, div_div]
    congr 1; ring

theorem wOfE_hi (r : RowE d) (hm : rd.mode ≠ .const) : wOfE sq rd m q (false, r)
    = barrierWeight rd.mode rd.tau (slackHi (q.hiE r) (sq (m.bsqE r))) (sq (m.bsqE r)) := by
  unfold wOfE weight nominal barrierWeight slackHi
  simp only [Bool.false_eq_true, if_false]
  cases h : rd.mode with
  | const => exact absurd h hm
  | barrier1 => simp only [if_true]; congr 1; ring
  | barrier2 =>
    simp only [reduceCtorEq, if_false]
    rw [show -q.hiE r - sq (m.bsqE r) = -(q.hiE r + sq (m.bsqE r)) by ring, neg_one_mul, neg_div_neg_eq, div_div]
    congr 1; ring


theorem lq_gram (n : Nat) (c : Nat → Grad K d) (t : Nat → Grad K d) (w : Nat → K)
    (h : ∀ r < n, t r = ⟨w r • (c r).u, w r • (c r).x⟩) (Q : Mat K d.nx d.nx) (R : Mat K d.nu d.nu) (S : Mat K d.nu d.nx)
    (x : Fin d.nx → K) (u : Fin d.nu → K) :
    lqCost (gram n (fun r => (c r).x) (fun r => (t r).x) + Q) (gram n (fun r => (c r).u) (fun r => (t r).u) + R)
      (gram n (fun r => (c r).u) (fun r => (t r).x) + S) x u
    = lqCost Q R S x u + ∑ r ∈ Finset.range n, w r * ((c r).x ⬝ᵥ x + (c r).u ⬝ᵥ u) ^ 2 := by
  unfold lqCost
  rw [quad_add, quad_add, add_mulVec, dotProduct_add]
  have e1 : quad (gram n (fun r => (c r).x) (fun r => (t r).x)) x
      = ∑ r ∈ Finset.range n, w r * ((c r).x ⬝ᵥ x) ^ 2 := by
    unfold quad; rw [gram_bil]
    refine Finset.sum_congr rfl fun r hr => ?_
    rw [h r (Finset.mem_range.mp hr)]; simp only [smul_dotProduct, smul_eq_mul]; ring
  have e2 : quad (gram n (fun r => (c r).u) (fun r => (t r).u)) u
      = ∑ r ∈ Finset.range n, w r * ((c r).u ⬝ᵥ u) ^ 2 := by
    unfold quad; rw [gram_bil]
    refine Finset.sum_congr rfl fun r hr => ?_
    rw [h r (Finset.mem_range.mp hr)]; simp only [smul_dotProduct, smul_eq_mul]; ring
  have e3 : u ⬝ᵥ (gram n (fun r => (c r).u) (fun r => (t r).x) *ᵥ x)
      = ∑ r ∈ Finset.range n, w r * (((c r).u ⬝ᵥ u) * ((c r).x ⬝ᵥ x)) := by
    rw [gram_bil]
    refine Finset.sum_congr rfl fun r hr => ?_
    rw [h r (Finset.mem_range.mp hr)]; simp only [smul_dotProduct, smul_eq_mul]; ring
  have e4 : ∑ r ∈ Finset.range n, w r * ((c r).x ⬝ᵥ x + (c r).u ⬝ᵥ u) ^ 2
      = (∑ r ∈ Finset.range n, w r * ((c r).x ⬝ᵥ x) ^ 2)
        + 2 * (∑ r ∈ Finset.range n, w r * (((c r).u ⬝ᵥ u) * ((c r).x ⬝ᵥ x)))
        + ∑ r ∈ Finset.range n, w r * ((c r).u ⬝ᵥ u) ^ 2 := by
    rw [Finset.mul_sum, ← Finset.sum_add_distrib, ← Finset.sum_add_distrib]
    refine Finset.sum_congr rfl fun r _ => ?_
    ring
  rw [e1, e2, e3, e4]; ring

variable (n0 : Nlp K d)

/-- the constant gradients are in place -/
def DctOk (rm : RMem K d) : Prop := ∀ r (hr : r < (rowsOf ds).length), rm.dct r = initRow n0 (rowsOf ds)[r].2

theorem grad_row (k : Nat) (r : Row d) (hg : r.kind ≠ .g) (hh : r.kind ≠ .h) (x : Fin d.nx → K) (u : Fin d.nu → K) :
    (initRow n0 r).x ⬝ᵥ x + (initRow n0 r).u ⬝ᵥ u = rowAt n0 l k 0 x u r := by
  cases r with
  | bu i => simp [initRow, rowAt]
  | bx i => simp [initRow, rowAt]
  | g i => exact absurd rfl hg
  | h i => exact absurd rfl hh

theorem stage_cost (k : Nat) (rm : RMem K d) (hm : rd.mode ≠ .const) (h0 : DctOk ds n0 rm)
    (hg : ∀ p ∈ rowsOf ds, p.2.kind ≠ .g) (hh : ∀ p ∈ rowsOf ds, p.2.kind ≠ .h) :
    (quadStage sq ds rd m l q k rm).dct = rm.dct ∧
    (∀ x u, lqCost (quadStage sq ds rd m l q k rm).Q (quadStage sq ds rd m l q k rm).R
      (quadStage sq ds rd m l q k rm).S x u = ricCost sq ds rd n0 l q m.bsq k x u) ∧
    (Sym rd.Q → Sym (quadStage sq ds rd m l q k rm).Q) ∧ (Sym rd.R → Sym (quadStage sq ds rd m l q k rm).R) := by
  obtain ⟨a1, -, a3⟩ := overRows_spec sq rd m l q k (rowsOf ds) hh 0 ⟨rm.dct, rm.dct⟩
  simp only [Nat.zero_add] at a3
  let w : Nat → K := fun r => if hr : r < (rowsOf ds).length then wOf sq rd m q k (rowsOf ds)[r] else 0
  have hw : ∀ r < (rowsOf ds).length, (overRows (quadRow sq rd m l q k) 0 (rowsOf ds) ⟨rm.dct, rm.dct⟩).sc r
      = ⟨w r • (rm.dct r).u, w r • (rm.dct r).x⟩ := fun r hr => by
    rw [a3 r hr]; simp only [w, dif_pos hr]
  refine ⟨a1, fun x u => ?_, fun hs => ?_, fun hs => ?_⟩
  · have := lq_gram (rowsOf ds).length rm.dct _ w hw rd.Q rd.R rd.S x u
    unfold quadStage
    simp only [a1]
    rw [this]
    have e := sum_rows (rowsOf ds) (fun r => w r * ((rm.dct r).x ⬝ᵥ x + (rm.dct r).u ⬝ᵥ u) ^ 2)
      (fun p => wOf sq rd m q k p * rowAt n0 l k 0 x u p.2 ^ 2) (fun r hr => by
        rw [h0 r hr, grad_row l n0 k _ (hg _ (List.getElem_mem hr)) (hh _ (List.getElem_mem hr))]
        simp only [w, dif_pos hr])
    rw [e, rowsOf_sum]
    unfold ricCost
    simp only [wOf_lo sq rd m q k _ hm, wOf_hi sq rd m q k _ hm]
    ring
  · unfold quadStage
    simp only [a1]
    exact sym_add (gram_sym _ _ w _ fun r hr => by rw [hw r hr]) hs
  · unfold quadStage
    simp only [a1]
    exact sym_add (gram_sym _ _ w _ fun r hr => by rw [hw r hr]) hs

/-- the constant terminal gradients are in place -/
def DcetOk (rm : RMem K d) : Prop :=
  ∀ r (hr : r < (rowsOfE ds).length), (rowsOfE ds)[r].2.kind ≠ .h → rm.dcet r = initRowE n0 (rowsOfE ds)[r].2

/-- the bounds of the last stage are on the same states as those of the path -/
def EndIdx : Prop := ∀ p ∈ rowsOfE ds, ∀ i, p.2 = .bx i → ∃ h : i < d.nbx, n0.idxbx ⟨i, h⟩ = n0.idxbxe i

theorem terminal_cost (rm : RMem K d) (hm : rd.mode ≠ .const) (h0 : DcetOk ds n0 rm)
    (hg : ∀ p ∈ rowsOfE ds, p.2.kind ≠ .g) (hi : EndIdx ds n0) :
    DcetOk ds n0 (quadTerminal sq ds rd m l q rm) ∧
    (∀ x, quad (quadTerminal sq ds rd m l q rm).Q x = ricCostE sq ds rd n0 l q m.bsqE x) ∧
    (Sym rd.Qe → Sym (quadTerminal sq ds rd m l q rm).Q) := by
  obtain ⟨-, a3⟩ := overRowsE_spec sq rd m l q (rowsOfE ds) 0 ⟨rm.dcet, rm.dcet⟩
  simp only [Nat.zero_add] at a3
  let w : Nat → K := fun r => if hr : r < (rowsOfE ds).length then wOfE sq rd m q (rowsOfE ds)[r] else 0
  have hw : ∀ r < (rowsOfE ds).length, (overRows (quadRowE sq rd m l q) 0 (rowsOfE ds) ⟨rm.dcet, rm.dcet⟩).sc r
      = w r • (overRows (quadRowE sq rd m l q) 0 (rowsOfE ds) ⟨rm.dcet, rm.dcet⟩).dct r := fun r hr => by
    rw [(a3 r hr).1, (a3 r hr).2]; simp only [w, dif_pos hr]
  have hrow : ∀ r (hr : r < (rowsOfE ds).length) x,
      (overRows (quadRowE sq rd m l q) 0 (rowsOfE ds) ⟨rm.dcet, rm.dcet⟩).dct r ⬝ᵥ x
      = rowAtE n0 l 0 x (rowsOfE ds)[r].2 := by
    intro r hr x
    rw [(a3 r hr).1]
    have g1 := hg _ (List.getElem_mem hr)
    have g2 := hi _ (List.getElem_mem hr)
    have g3 := h0 r hr
    unfold gE
    generalize (rowsOfE ds)[r] = p at *
    obtain ⟨b, r'⟩ := p
    cases r' with
    | bx i =>
      obtain ⟨h1, h2⟩ := g2 i rfl
      simp only [g3 (by simp [RowE.kind]), initRowE, dif_pos h1, single_one_dotProduct, rowAtE, h2, zero_add]
    | g i => exact absurd rfl g1
    | h i => simp only [rowAtE, zero_add]; rfl
  refine ⟨fun r hr hk => ?_, fun x => ?_, fun hs => ?_⟩
  · show (overRows (quadRowE sq rd m l q) 0 (rowsOfE ds) ⟨rm.dcet, rm.dcet⟩).dct r = _
    rw [(a3 r hr).1]
    have g3 := h0 r hr hk
    unfold gE
    generalize (rowsOfE ds)[r] = p at *
    obtain ⟨b, r'⟩ := p
    cases r' with
    | bx i => exact g3
    | g i => exact g3
    | h i => exact absurd rfl hk
  · unfold quadTerminal
    simp only [quad_add]
    have e1 : quad (gram (rowsOfE ds).length (overRows (quadRowE sq rd m l q) 0 (rowsOfE ds) ⟨rm.dcet, rm.dcet⟩).dct
        (overRows (quadRowE sq rd m l q) 0 (rowsOfE ds) ⟨rm.dcet, rm.dcet⟩).sc) x
        = ∑ r ∈ Finset.range (rowsOfE ds).length, w r
          * ((overRows (quadRowE sq rd m l q) 0 (rowsOfE ds) ⟨rm.dcet, rm.dcet⟩).dct r ⬝ᵥ x) ^ 2 := by
      unfold quad; rw [gram_bil]
      refine Finset.sum_congr rfl fun r hr => ?_
      rw [hw r (Finset.mem_range.mp hr)]; simp only [smul_dotProduct, smul_eq_mul]; ring
    rw [e1, sum_rows (rowsOfE ds) _ (fun p => wOfE sq rd m q p * rowAtE n0 l 0 x p.2 ^ 2) (fun r hr => by
        rw [hrow r hr x]; simp only [w, dif_pos hr]), rowsOfE_sum]
    unfold ricCostE
    simp only [wOfE_lo sq rd m q _ hm, wOfE_hi sq rd m q _ hm]
    ring
  · exact sym_add (gram_sym _ _ w _ hw) hs

end
end Acados.Zoro
