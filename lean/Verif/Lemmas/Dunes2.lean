import Verif.Lemmas.Dunes
/-!
# Feasibility, objective and optimality conditions of the two problems
-/
namespace Acados.Dunes
open Finset
open Acados.QpScal
variable {K : Type*} [Field K] [LinearOrder K]

theorem sum_upos (nx nu : Nat) (f : Nat → K) : ∑ j ∈ range (nx + nu), f (upos nx nu j) = ∑ r ∈ range (nu + nx), f r := by
  rw [sum_range_add, sum_range_add, add_comm]
  congr 1
  · refine sum_congr rfl fun i hi => ?_
    unfold upos; rw [if_neg (by omega)]; congr 1; omega
  · refine sum_congr rfl fun i hi => ?_
    unfold upos; rw [if_pos (by simpa using hi)]

variable {inf : K} {q : Qp K} {st : Nat → DStage K}

/-- the problem of qpDUNES -/
def prob (q : Qp K) (st : Nat → DStage K) : DQp K := ⟨q.N, q.nx 0, q.nu 0, fun k => (q.st k).ng, st⟩

theorem nv_prob (h : QpOk q) {k : Nat} (hk : k ≤ q.N) : (prob q st).nv k = q.nx 0 + q.nu k := by
  unfold DQp.nv prob
  by_cases e : k < q.N
  · simp only [if_pos e, h.nu k e]
  · have : k = q.N := by omega
    subst this; simp only [if_neg e, h.nuN, Nat.add_zero]

theorem nux_eq (hs : Supported inf q) {k : Nat} (hk : k ≤ q.N) : (q.st k).nux = q.nu k + q.nx 0 := by
  rw [hs.wf.nux k, hs.ok.nx k hk]

theorem Rel.zpos {ux z : Nat → Nat → K} (h : Rel q ux z) {k r : Nat} (hk : k ≤ q.N) (hr : r < q.nu k + q.nx 0) :
    z k (Dunes.zpos (q.nx 0) (q.nu k) r) = ux k r := by
  rw [h k hk _ (zpos_lt hr), upos_zpos hr]

theorem sl_zero (hs : Supported inf q) {k : Nat} (hk : k ≤ q.N) (ux : Nat → K) {r : Nat} (hr : r < (q.st k).m) :
    (q.st k).sl ux r = 0 ∧ (q.st k).su ux r = 0 := by
  have : (q.st k).idxs r = -1 := by
    rcases hs.wf.idxs k r hr with e | ⟨j, hj, -⟩
    · exact e
    · rw [hs.ns k hk] at hj; omega
  unfold Stage.sl Stage.su
  rw [this]
  exact ⟨if_neg (by omega), if_neg (by omega)⟩

theorem row_eq (hs : Supported inf q) (hh : Holds inf q st) {ux z : Nat → Nat → K} (hr : Rel q ux z) {k : Nat} (hk : k ≤ q.N) {i : Nat}
    (hi : i < (q.st k).ng) : (prob q st).row k (z k) i = (q.st k).lhs (ux k) ((q.st k).nb + i) := by
  unfold DQp.row Stage.lhs
  rw [if_neg (by omega), nv_prob hs.ok hk, nux_eq hs hk, ← sum_upos (q.nx 0) (q.nu k)]
  refine sum_congr rfl fun j hj => ?_
  have hj := mem_range.1 hj
  rw [hr k hk j hj, show (q.st k).nb + i - (q.st k).nb = i by omega]
  rw [show ((prob q st).st k).D i j = (st k).D i j from rfl, (hh k hk).D i hi j hj]

theorem feasible_iff [IsOrderedRing K] (hs : Supported inf q) (hh : Holds inf q st) {ux z : Nat → Nat → K} (hr : Rel q ux z) :
    DFeasible inf (prob q st) z ↔ Feasible q ux := by
  have hm : ∀ k, (q.st k).m = (q.st k).nb + (q.st k).ng := fun _ => rfl
  have lhsb : ∀ k, ∀ r < (q.st k).nb, (q.st k).lhs (ux k) r = ux k ((q.st k).idxb r) := fun k r hr => if_pos hr
  have hb : ∀ k ≤ q.N, ∀ r < (q.st k).nb, (q.st k).idxb r < q.nu k + q.nx 0 := fun k hk r hr => by
    have := (hs.ok.st k hk).idxb r hr; rwa [hs.ok.nx k hk] at this
  have dynEq : ∀ k < q.N, ∀ i < q.nx 0, (∑ j ∈ range ((prob q st).nv k), ((prob q st).st k).C i j * z k j) + ((prob q st).st k).c i
      = (∑ r ∈ range (q.st k).nux, (q.st k).BAbt r i * ux k r) + (q.st k).b i := by
    intro k hk i hi
    rw [nv_prob hs.ok (by omega), nux_eq hs (by omega), ← sum_upos (q.nx 0) (q.nu k)]
    have hne : ¬ (k = q.N) := by omega
    congr 1
    · refine sum_congr rfl fun j hj => ?_
      have hj := mem_range.1 hj
      rw [hr k (by omega) j hj]
      rw [show ((prob q st).st k).C i j = (st k).C i j from rfl, (hh k (by omega)).C hne i hi j hj]
    · exact (hh k (by omega)).c hne i hi
  have xEq : ∀ k ≤ q.N, ∀ i < q.nx 0, z k i = ux k (q.nu k + i) := by
    intro k hk i hi
    rw [hr k hk i (by omega)]
    unfold upos; rw [if_pos hi]
  constructor
  · intro h
    refine ⟨fun k hk c hc => ?_, fun k hk r hr' _ => ?_, fun k hk r hr' _ => ?_, fun k hk j hj => ?_⟩
    · rw [hs.ok.nx (k + 1) (by omega)] at hc
      rw [← dynEq k hk c hc, h.dyn k hk c hc, xEq (k + 1) (by omega) c hc]
    · unfold Stage.gapL
      rw [(sl_zero hs hk (ux k) hr').1, add_zero, sub_nonneg]
      by_cases e : r < (q.st k).nb
      · rw [lhsb k r e, ← hr.zpos hk (hb k hk r e)]
        have h1 := ((hh k hk).bndz (hb k hk) r e).1
        have h2 := h.low k hk (zpos (q.nx 0) (q.nu k) ((q.st k).idxb r)) (by rw [nv_prob hs.ok hk]; exact zpos_lt (hb k hk r e))
        rw [show ((prob q st).st k).zLow = (st k).zLow from rfl, h1] at h2
        exact h2 (hs.fin k hk r e).1
      · have hi : r - (q.st k).nb < (q.st k).ng := by rw [hm] at hr'; omega
        have h2 := h.rlow k hk (r - (q.st k).nb) hi
        rw [row_eq hs hh hr hk hi, show ((prob q st).st k).dLow = (st k).dLow from rfl, (hh k hk).dLow _ hi,
          show (q.st k).nb + (r - (q.st k).nb) = r by omega] at h2
        exact h2
    · unfold Stage.gapU
      rw [(sl_zero hs hk (ux k) hr').2, add_zero]
      by_cases e : r < (q.st k).nb
      · rw [lhsb k r e, ← hr.zpos hk (hb k hk r e)]
        have h1 := ((hh k hk).bndz (hb k hk) r e).2
        have h2 := h.upp k hk (zpos (q.nx 0) (q.nu k) ((q.st k).idxb r)) (by rw [nv_prob hs.ok hk]; exact zpos_lt (hb k hk r e))
        rw [show ((prob q st).st k).zUpp = (st k).zUpp from rfl, h1] at h2
        have := h2 (hs.fin k hk r e).2
        rw [hm]; linarith
      · have hi : r - (q.st k).nb < (q.st k).ng := by rw [hm] at hr'; omega
        have h2 := h.rupp k hk (r - (q.st k).nb) hi
        rw [row_eq hs hh hr hk hi, show ((prob q st).st k).dUpp = (st k).dUpp from rfl, (hh k hk).dUpp _ hi,
          show (q.st k).nb + (r - (q.st k).nb) = r by omega,
          show 2 * (q.st k).nb + (q.st k).ng + (r - (q.st k).nb) = (q.st k).m + r by rw [hm]; omega] at h2
        linarith
    · rw [hs.ns k hk] at hj; omega
  · intro h
    have one : ∀ k ≤ q.N, ∀ r, (q.st k).mask r ≠ 0 := fun k hk r => by rw [hs.mask k hk r]; exact one_ne_zero
    have cover : ∀ k ≤ q.N, ∀ j < q.nx 0 + q.nu k, (∃ r < (q.st k).nb, (q.st k).idxb r = upos (q.nx 0) (q.nu k) j) ∨
        ((st k).zLow j = -inf ∧ (st k).zUpp j = inf) := by
      intro k hk j hj
      by_cases e : ∃ r < (q.st k).nb, (q.st k).idxb r = upos (q.nx 0) (q.nu k) j
      · exact .inl e
      · exact .inr ((hh k hk).free j hj fun r hr he => e ⟨r, hr, he⟩)
    refine ⟨fun k hk i hi => ?_, fun k hk j hj => ?_, fun k hk j hj => ?_, fun k hk i hi => ?_, fun k hk i hi => ?_⟩
    · have hi : i < q.nx 0 := hi
      have hk : k < q.N := hk
      rw [dynEq k hk i hi, h.dyn k hk i (by rw [hs.ok.nx (k + 1) (by omega)]; exact hi), xEq (k + 1) (by omega) i hi]
    · have hk : k ≤ q.N := hk
      rw [nv_prob hs.ok hk] at hj
      show -inf < (st k).zLow j → (st k).zLow j ≤ z k j
      intro hlt
      rcases cover k hk j hj with ⟨r, hr', e⟩ | ⟨e, -⟩
      · have h1 := ((hh k hk).bndz (hb k hk) r hr').1
        rw [e, zpos_upos hj] at h1
        have h2 := h.low k hk r (by rw [hm]; omega) (one k hk r)
        unfold Stage.gapL at h2
        rw [(sl_zero hs hk (ux k) (by rw [hm]; omega)).1, lhsb k r hr', e, ← hr k hk j hj] at h2
        rw [h1]; linarith
      · rw [e] at hlt; exact absurd hlt (lt_irrefl _)
    · have hk : k ≤ q.N := hk
      rw [nv_prob hs.ok hk] at hj
      show (st k).zUpp j < inf → z k j ≤ (st k).zUpp j
      intro hlt
      rcases cover k hk j hj with ⟨r, hr', e⟩ | ⟨-, e⟩
      · have h1 := ((hh k hk).bndz (hb k hk) r hr').2
        rw [e, zpos_upos hj] at h1
        have h2 := h.upp k hk r (by rw [hm]; omega) (one k hk _)
        unfold Stage.gapU at h2
        rw [(sl_zero hs hk (ux k) (by rw [hm]; omega)).2, lhsb k r hr', e, ← hr k hk j hj, hm] at h2
        rw [h1]; linarith
      · rw [e] at hlt; exact absurd hlt (lt_irrefl _)
    · have hk : k ≤ q.N := hk
      have hi : i < (q.st k).ng := hi
      rw [row_eq hs hh hr hk hi]
      show (st k).dLow i ≤ _
      rw [(hh k hk).dLow i hi]
      have h2 := h.low k hk ((q.st k).nb + i) (by rw [hm]; omega) (one k hk _)
      unfold Stage.gapL at h2
      rw [(sl_zero hs hk (ux k) (by rw [hm]; omega)).1] at h2
      linarith
    · have hk : k ≤ q.N := hk
      have hi : i < (q.st k).ng := hi
      rw [row_eq hs hh hr hk hi]
      show _ ≤ (st k).dUpp i
      rw [(hh k hk).dUpp i hi]
      have h2 := h.upp k hk ((q.st k).nb + i) (by rw [hm]; omega) (one k hk _)
      unfold Stage.gapU at h2
      rw [(sl_zero hs hk (ux k) (by rw [hm]; omega)).2, show (q.st k).m + ((q.st k).nb + i) = 2 * (q.st k).nb + (q.st k).ng + i by rw [hm]; omega] at h2
      linarith

theorem value_eq (hs : Supported inf q) (hh : Holds inf q st) {ux z : Nat → Nat → K} (hr : Rel q ux z) :
    dvalue (prob q st) z = value q ux := by
  unfold dvalue value
  refine sum_congr rfl fun k hk => ?_
  have hk : k ≤ q.N := by have : k < q.N + 1 := mem_range.1 hk; omega
  rw [nv_prob hs.ok hk, nux_eq hs hk, hs.ns k hk]
  simp only [Nat.mul_zero, range_zero, sum_empty, add_zero]
  congr 1
  · congr 1
    rw [← sum_upos (q.nx 0) (q.nu k)]
    refine sum_congr rfl fun i hi => ?_
    have hi := mem_range.1 hi
    rw [hr k hk i hi, ← sum_upos (q.nx 0) (q.nu k)]
    congr 1
    refine sum_congr rfl fun j hj => ?_
    have hj := mem_range.1 hj
    rw [hr k hk j hj, show ((prob q st).st k).H i j = (st k).H i j from rfl, (hh k hk).H i hi j hj]
  · rw [← sum_upos (q.nx 0) (q.nu k)]
    refine sum_congr rfl fun i hi => ?_
    have hi := mem_range.1 hi
    rw [hr k hk i hi, show ((prob q st).st k).g i = (st k).g i from rfl, (hh k hk).g i hi]

theorem fillUx_spec (nx nu : Nat) (z old : Nat → K) : ∀ j < nx + nu, fillUx nx nu z old (upos nx nu j) = z j := by
  intro j hj
  have inner : ∀ i < nx, assigns (List.range nx) (fun i => nu + i) z old (nu + i) = z i := fun i hi =>
    (assigns_of (List.range nx) (fun i => nu + i) z old).1 i (List.mem_range.2 hi) fun b _ e => by rw [Nat.add_left_cancel e]
  unfold fillUx upos
  by_cases h : j < nx
  · rw [if_pos h, (assigns_of (List.range nu) id (fun i => z (nx + i)) _).2 _ fun a ha e => by
      have := List.mem_range.1 ha; simp only [id] at e; omega]
    exact inner j h
  · rw [if_neg h]
    have := (assigns_of (List.range nu) id (fun i => z (nx + i)) (assigns (List.range nx) (fun i => nu + i) z old)).1 (j - nx)
      (List.mem_range.2 (by omega)) fun b _ e => by simp only [id] at e; rw [e]
    simp only [id] at this
    rw [this, show nx + (j - nx) = j by omega]

/-! ### Multipliers -/

theorem lam_spec (nx nu nb ng : Nat) (idxb : Nat → Nat) (y old : Nat → K)
    (hp : nb = 0 ∨ (nb = nu + nx ∧ ∀ i < nb, idxb i = i) ∨ (nu = 0 ∧ nb ≤ nx)) (hidx : ∀ i < nb, idxb i < nu + nx) (hy : ∀ i < 2 * (nx + nu) + 2 * ng, 0 ≤ y i) :
    ∃ l, fillLam nx nu nb ng (nx + nu) idxb y old = some l ∧
      (∀ r < nb, l r = y (2 * zpos nx nu (idxb r)) ∧ l (nb + ng + r) = y (2 * zpos nx nu (idxb r) + 1)) ∧
      ∀ i < ng, l (nb + i) = y (2 * (nx + nu) + 2 * i) ∧ l (nb + ng + (nb + i)) = y (2 * (nx + nu) + 2 * i + 1) := by
  have hclip : ∀ i < 2 * (nx + nu) + 2 * ng, (if i < 2 * (nx + nu) + 2 * ng then (if 0 ≤ y i then y i else 0) else y i) = y i := by
    intro i hi; rw [if_pos hi, if_pos (hy i hi)]
  unfold fillLam
  simp only
  generalize hyc : (fun i => if i < 2 * (nx + nu) + 2 * ng then (if 0 ≤ y i then y i else 0) else y i) = yc
  have hyc' : ∀ i < 2 * (nx + nu) + 2 * ng, yc i = y i := fun i hi => by rw [← hyc]; exact hclip i hi
  clear hclip hyc
  -- all writes are values of one function of the address
  let g : Nat → K := fun a => if a < nb then y (2 * zpos nx nu (idxb a)) else if a < nb + ng then y (2 * (nx + nu) + 2 * (a - nb))
    else if a < nb + ng + nb then y (2 * zpos nx nu (idxb (a - (nb + ng))) + 1) else y (2 * (nx + nu) + 2 * (a - (nb + ng + nb)) + 1)
  have hw : ∀ a ∈ lamWrites nx nu nb ng (nx + nu) idxb yc, a.2 = g a.1 ∧ a.1 < 2 * nb + 2 * ng := by
    intro a ha
    unfold lamWrites at ha
    rcases List.mem_append.1 ha with ha | ha
    · obtain ⟨i, hi, ha⟩ := List.mem_flatMap.1 ha
      have hi := List.mem_range.1 hi
      have hz1 : ∀ r < nu, zpos nx nu r = r + nx := fun r h => if_pos h
      have hz2 : ∀ r, nu ≤ r → zpos nx nu r = r - nu := fun r h => if_neg (by omega)
      have hlt := hidx i hi
      rcases hp with h0 | ⟨hn, hid⟩ | ⟨hn, hle⟩
      · omega
      · by_cases h : i < nx
        · rw [if_pos h, hid i hi] at ha
          simp only [List.mem_cons, List.not_mem_nil, or_false] at ha
          rcases ha with rfl | rfl
          · refine ⟨?_, by simp only; omega⟩
            simp only [g]
            rw [if_pos (by omega), hid _ (by omega), hz2 _ (by omega), hyc' _ (by omega), show nu + i - nu = i by omega]
          · refine ⟨?_, by simp only; omega⟩
            simp only [g]
            rw [if_neg (by omega), if_neg (by omega), if_pos (by omega), hid _ (by omega), hz2 _ (by omega), hyc' _ (by omega),
              show nb + ng + nu + i - (nb + ng) - nu = i by omega]
        · rw [if_neg h, hid i hi] at ha
          simp only [List.mem_cons, List.not_mem_nil, or_false] at ha
          rcases ha with rfl | rfl
          · refine ⟨?_, by simp only; omega⟩
            simp only [g]
            rw [if_pos (by omega), hid _ (by omega), hz1 _ (by omega), hyc' _ (by omega), show i - nx + nx = i by omega]
          · refine ⟨?_, by simp only; omega⟩
            simp only [g]
            rw [if_neg (by omega), if_neg (by omega), if_pos (by omega), hid _ (by omega), hz1 _ (by omega), hyc' _ (by omega),
              show nb + ng + i - nx - (nb + ng) + nx = i by omega]
      · rw [if_pos (by omega)] at ha
        simp only [List.mem_cons, List.not_mem_nil, or_false] at ha
        rcases ha with rfl | rfl
        · refine ⟨?_, by simp only; omega⟩
          simp only [g]
          rw [if_pos (by omega), show nu + i = i by omega, hz2 _ (by omega), hyc' _ (by omega), show idxb i - nu = idxb i by omega]
        · refine ⟨?_, by simp only; omega⟩
          simp only [g]
          rw [if_neg (by omega), if_neg (by omega), if_pos (by omega), show nb + ng + nu + i - (nb + ng) = i by omega,
            hz2 _ (by omega), hyc' _ (by omega), show idxb i - nu = idxb i by omega]
    · obtain ⟨i, hi, ha⟩ := List.mem_flatMap.1 ha
      have hi := List.mem_range.1 hi
      simp only [List.mem_cons, List.not_mem_nil, or_false] at ha
      rcases ha with rfl | rfl
      · refine ⟨?_, by simp only; omega⟩
        simp only [g]
        rw [if_neg (by omega), if_pos (by omega), hyc' _ (by omega), show nb + i - nb = i by omega]
      · refine ⟨?_, by simp only; omega⟩
        simp only [g]
        rw [if_neg (by omega), if_neg (by omega), if_neg (by omega), hyc' _ (by omega),
          show 2 * nb + ng + i - (nb + ng + nb) = i by omega]
  rw [if_pos (List.all_eq_true.2 fun a ha => by simpa using (hw a ha).2)]
  refine ⟨_, rfl, ?_⟩
  have out : ∀ a v, (a, v) ∈ lamWrites nx nu nb ng (nx + nu) idxb yc → ∀ buf : Nat → K,
      assigns (lamWrites nx nu nb ng (nx + nu) idxb yc) Prod.fst Prod.snd buf a = g a := by
    intro a v hm buf
    have := (assigns_of (lamWrites nx nu nb ng (nx + nu) idxb yc) Prod.fst Prod.snd buf).1 (a, v) hm (fun b hb e => by
      rw [(hw b hb).1, (hw (a, v) hm).1, e])
    simp only at this
    rw [this]; exact (hw (a, v) hm).1
  have mb : ∀ r < nb, (∃ v, (r, v) ∈ lamWrites nx nu nb ng (nx + nu) idxb yc) ∧
      ∃ v, (nb + ng + r, v) ∈ lamWrites nx nu nb ng (nx + nu) idxb yc := by
    intro r hr
    rcases hp with h0 | ⟨hn, hid⟩ | ⟨hn, hle⟩
    · omega
    · unfold lamWrites
      by_cases h : r < nu
      · constructor
        · refine ⟨yc (2 * (r + nx)), List.mem_append_left _ (List.mem_flatMap.2 ⟨r + nx, List.mem_range.2 (by omega), ?_⟩)⟩
          rw [if_neg (by omega), hid _ (by omega), show r + nx - nx = r by omega]; simp
        · refine ⟨yc (2 * (r + nx) + 1), List.mem_append_left _ (List.mem_flatMap.2 ⟨r + nx, List.mem_range.2 (by omega), ?_⟩)⟩
          rw [if_neg (by omega), hid _ (by omega), show nb + ng + (r + nx) - nx = nb + ng + r by omega]; simp
      · constructor
        · refine ⟨yc (2 * (r - nu)), List.mem_append_left _ (List.mem_flatMap.2 ⟨r - nu, List.mem_range.2 (by omega), ?_⟩)⟩
          rw [if_pos (by omega), hid _ (by omega), show nu + (r - nu) = r by omega]; simp
        · refine ⟨yc (2 * (r - nu) + 1), List.mem_append_left _ (List.mem_flatMap.2 ⟨r - nu, List.mem_range.2 (by omega), ?_⟩)⟩
          rw [if_pos (by omega), hid _ (by omega), show nb + ng + nu + (r - nu) = nb + ng + r by omega]; simp
    · unfold lamWrites
      constructor
      · refine ⟨yc (2 * idxb r), List.mem_append_left _ (List.mem_flatMap.2 ⟨r, List.mem_range.2 hr, ?_⟩)⟩
        rw [if_pos (by omega), show nu + r = r by omega]; simp
      · refine ⟨yc (2 * idxb r + 1), List.mem_append_left _ (List.mem_flatMap.2 ⟨r, List.mem_range.2 hr, ?_⟩)⟩
        rw [if_pos (by omega), show nb + ng + nu + r = nb + ng + r by omega]; simp
  have mg : ∀ i < ng, (∃ v, (nb + i, v) ∈ lamWrites nx nu nb ng (nx + nu) idxb yc) ∧
      ∃ v, (nb + ng + (nb + i), v) ∈ lamWrites nx nu nb ng (nx + nu) idxb yc := by
    intro i hi
    unfold lamWrites
    refine ⟨⟨yc (2 * (nx + nu) + 2 * i), List.mem_append_right _ (List.mem_flatMap.2 ⟨i, List.mem_range.2 hi, by simp⟩)⟩,
      ⟨yc (2 * (nx + nu) + 2 * i + 1), List.mem_append_right _ (List.mem_flatMap.2 ⟨i, List.mem_range.2 hi, ?_⟩)⟩⟩
    rw [show nb + ng + (nb + i) = 2 * nb + ng + i by omega]; simp
  refine ⟨fun r hr => ⟨?_, ?_⟩, fun i hi => ⟨?_, ?_⟩⟩
  · obtain ⟨v, hv⟩ := (mb r hr).1
    rw [out r v hv]; exact if_pos hr
  · obtain ⟨v, hv⟩ := (mb r hr).2
    rw [out _ v hv]
    simp only [g]
    rw [if_neg (by omega), if_neg (by omega), if_pos (by omega), show nb + ng + r - (nb + ng) = r by omega]
  · obtain ⟨v, hv⟩ := (mg i hi).1
    rw [out _ v hv]
    simp only [g]
    rw [if_neg (by omega), if_pos (by omega), show nb + i - nb = i by omega]
  · obtain ⟨v, hv⟩ := (mg i hi).2
    rw [out _ v hv]
    simp only [g]
    rw [if_neg (by omega), if_neg (by omega), if_neg (by omega), show nb + ng + (nb + i) - (nb + ng + nb) = i by omega]

/-- the optimality conditions carry over if the multipliers do -/
theorem kkt_of [IsOrderedRing K] (hs : Supported inf q) (hh : Holds inf q st) (hp : ∀ k ≤ q.N, Plain (q.nx 0) (q.nu k) (q.st k))
    {z lamD y : Nat → Nat → K} (h : DKkt inf (prob q st) z lamD y) (old : Sol K) :
    ∃ w, fillOut q z lamD y old = some w ∧ Kkt q w ∧ Rel q w.ux z := by
  have hm : ∀ k, (q.st k).m = (q.st k).nb + (q.st k).ng := fun _ => rfl
  have nvk : ∀ k ≤ q.N, (prob q st).nv k = q.nx 0 + q.nu k := fun k hk => nv_prob hs.ok hk
  have hb : ∀ k ≤ q.N, ∀ r < (q.st k).nb, (q.st k).idxb r < q.nu k + q.nx 0 := fun k hk r hr => by
    have := (hs.ok.st k hk).idxb r hr; rwa [hs.ok.nx k hk] at this
  -- multipliers are nonnegative
  have hy : ∀ k ≤ q.N, ∀ i < 2 * (q.nx 0 + q.nu k) + 2 * (q.st k).ng, 0 ≤ y k i := by
    intro k hk i hi
    have hl := h.low k hk (i / 2)
    have hu := h.upp k hk (i / 2)
    have hrl := h.rlow k hk (i / 2 - (q.nx 0 + q.nu k))
    have hru := h.rupp k hk (i / 2 - (q.nx 0 + q.nu k))
    rw [nvk k hk] at hl hu hrl hru
    have hD : (prob q st).nD k = (q.st k).ng := rfl
    rw [hD] at hrl hru
    by_cases e : i < 2 * (q.nx 0 + q.nu k)
    · rcases Nat.mod_two_eq_zero_or_one i with e2 | e2
      · have := (hl (by omega)).1; rwa [show 2 * (i / 2) = i by omega] at this
      · have := (hu (by omega)).1; rwa [show 2 * (i / 2) + 1 = i by omega] at this
    · rcases Nat.mod_two_eq_zero_or_one i with e2 | e2
      · have := (hrl (by omega)).1
        rwa [show 2 * (q.nx 0 + q.nu k) + 2 * (i / 2 - (q.nx 0 + q.nu k)) = i by omega] at this
      · have := (hru (by omega)).1
        rwa [show 2 * (q.nx 0 + q.nu k) + 2 * (i / 2 - (q.nx 0 + q.nu k)) + 1 = i by omega] at this
  have hl : ∀ k ≤ q.N, ∃ l, fillLam (q.nx k) (q.nu k) (q.st k).nb (q.st k).ng (q.nx k + q.nu k) (q.st k).idxb (y k) (old.lam k) = some l ∧
      (∀ r < (q.st k).nb, l r = y k (2 * zpos (q.nx 0) (q.nu k) ((q.st k).idxb r)) ∧ l ((q.st k).m + r) = y k (2 * zpos (q.nx 0) (q.nu k) ((q.st k).idxb r) + 1)) ∧
      ∀ i < (q.st k).ng, l ((q.st k).nb + i) = y k (2 * (q.nx 0 + q.nu k) + 2 * i) ∧
        l ((q.st k).m + ((q.st k).nb + i)) = y k (2 * (q.nx 0 + q.nu k) + 2 * i + 1) := by
    intro k hk
    rw [hs.ok.nx k hk]
    exact lam_spec (q.nx 0) (q.nu k) (q.st k).nb (q.st k).ng (q.st k).idxb (y k) (old.lam k) (hp k hk) (hb k hk) (hy k hk)
  unfold fillOut
  rw [if_pos (List.all_eq_true.2 fun k hk => by
    obtain ⟨l, e, -⟩ := hl k (by have := List.mem_range.1 hk; omega)
    rw [e]; rfl)]
  refine ⟨_, rfl, ?_⟩
  generalize hw : ({ ux := _, pi := _, lam := _ } : Sol K) = w
  have hux : ∀ k ≤ q.N, w.ux k = fillUx (q.nx 0) (q.nu k) (z k) (old.ux k) := by
    intro k hk; rw [← hw]; simp only; rw [if_pos hk, hs.ok.nx k hk]
  have hpi : ∀ k < q.N, ∀ i < q.nx 0, w.pi k i = lamD k i := by
    intro k hk i hi
    rw [← hw]; simp only; rw [if_pos hk, hs.ok.nx (k + 1) (by omega)]
    exact (assigns_of (List.range (q.nx 0)) id (lamD k) (old.pi k)).1 i (List.mem_range.2 hi) fun b _ e => by simp only [id] at e; rw [e]
  have hlam : ∀ k ≤ q.N, (∀ r < (q.st k).nb, w.lam k r = y k (2 * zpos (q.nx 0) (q.nu k) ((q.st k).idxb r)) ∧
        w.lam k ((q.st k).m + r) = y k (2 * zpos (q.nx 0) (q.nu k) ((q.st k).idxb r) + 1)) ∧
      ∀ i < (q.st k).ng, w.lam k ((q.st k).nb + i) = y k (2 * (q.nx 0 + q.nu k) + 2 * i) ∧
        w.lam k ((q.st k).m + ((q.st k).nb + i)) = y k (2 * (q.nx 0 + q.nu k) + 2 * i + 1) := by
    intro k hk
    obtain ⟨l, e, h1⟩ := hl k hk
    rw [← hw]; simp only; rw [if_pos hk, e]
    exact h1
  have hr : Rel q w.ux z := fun k hk j hj => by rw [hux k hk, fillUx_spec _ _ _ _ j hj]
  clear hw hl hux
  have hfeas := (feasible_iff hs hh hr).1 h.feas
  have one : ∀ k ≤ q.N, ∀ r, (q.st k).mask r = 1 := hs.mask
  have lhsb : ∀ k, ∀ r < (q.st k).nb, (q.st k).lhs (w.ux k) r = w.ux k ((q.st k).idxb r) := fun k r hr => if_pos hr
  refine ⟨⟨hfeas, fun k hk r hr' => ?_, fun k hk j hj => ?_, fun k hk j hj => ?_, fun k hk r hr' => ?_, fun k hk r hr' => ?_,
    fun k hk j hj => ?_⟩, hr⟩
  · rw [nux_eq hs hk] at hr'
    have hjl := zpos_lt (nx := q.nx 0) (nu := q.nu k) hr'
    have hst := h.stat k hk (zpos (q.nx 0) (q.nu k) r) (by rw [nvk k hk]; exact hjl)
    rw [← hst]
    unfold lagUx dlag
    rw [nvk k hk, nux_eq hs hk]
    congr 1
    · congr 1
      · congr 1
        · congr 1
          · congr 1
            · rw [← sum_upos (q.nx 0) (q.nu k)]
              refine sum_congr rfl fun j hj => ?_
              have hj := mem_range.1 hj
              rw [hr k hk j hj, show ((prob q st).st k).H = (st k).H from rfl, (hh k hk).H _ hjl j hj, upos_zpos hr']
            · rw [show ((prob q st).st k).g = (st k).g from rfl, (hh k hk).g _ hjl, upos_zpos hr']
          · by_cases e : k < q.N
            · rw [if_pos e, if_pos (show k < (prob q st).N from e), hs.ok.nx (k + 1) (by omega)]
              refine sum_congr rfl fun c hc => ?_
              have hc := mem_range.1 hc
              rw [hpi k e c hc, show ((prob q st).st k).C = (st k).C from rfl, (hh k hk).C (by omega) c hc _ hjl, upos_zpos hr']
            · rw [if_neg e, if_neg (show ¬ k < (prob q st).N from e)]
        · rw [show (prob q st).nx = q.nx 0 from rfl]
          by_cases e : 0 < k ∧ q.nu k ≤ r
          · have hz : zpos (q.nx 0) (q.nu k) r = r - q.nu k := if_neg (by omega)
            rw [if_pos e, if_pos (show 0 < k ∧ zpos (q.nx 0) (q.nu k) r < q.nx 0 from ⟨e.1, by rw [hz]; omega⟩), hz,
              hpi (k - 1) (by omega) _ (by omega)]
          · rw [if_neg e, if_neg (show ¬ (0 < k ∧ zpos (q.nx 0) (q.nu k) r < q.nx 0) from fun h => e ⟨h.1, by
              by_contra hlt
              have hz : zpos (q.nx 0) (q.nu k) r = r + q.nx 0 := if_pos (by omega)
              rw [hz] at h; omega⟩)]
      · by_cases ex : ∃ i < (q.st k).nb, (q.st k).idxb i = r
        · obtain ⟨i, hi, e2⟩ := ex
          rw [sum_eq_single_of_mem i (mem_range.2 hi) fun b hb' hne => if_neg fun e =>
            hne ((hs.ok.st k hk).inj b (by simpa using hb') i hi (by rw [e, e2])),
            if_pos e2, ((hlam k hk).1 i hi).1, ((hlam k hk).1 i hi).2, e2]
        · rw [sum_eq_zero fun b hb' => if_neg fun e => ex ⟨b, by simpa using hb', e⟩]
          have hf := (hh k hk).free _ hjl fun i hi => by rw [upos_zpos hr']; exact fun e => ex ⟨i, hi, e⟩
          have l1 := (h.low k hk _ (by rw [nvk k hk]; exact hjl)).2.1 (le_of_eq hf.1)
          have l2 := (h.upp k hk _ (by rw [nvk k hk]; exact hjl)).2.1 (le_of_eq hf.2.symm)
          rw [l1, l2, sub_zero]
    · refine sum_congr rfl fun i hi => ?_
      have hi : i < (q.st k).ng := mem_range.1 hi
      rw [((hlam k hk).2 i hi).1, ((hlam k hk).2 i hi).2, show ((prob q st).st k).D = (st k).D from rfl, (hh k hk).D i hi _ hjl,
        upos_zpos hr']
  · rw [hs.ns k hk] at hj; omega
  · rw [hs.ns k hk] at hj; omega
  · refine ⟨?_, fun e => absurd e (by rw [one k hk]; exact one_ne_zero), fun _ => ?_⟩
    · by_cases e : r < (q.st k).nb
      · rw [((hlam k hk).1 r e).1]
        exact hy k hk _ (by have := zpos_lt (nx := q.nx 0) (nu := q.nu k) (hb k hk r e); omega)
      · have hi : r - (q.st k).nb < (q.st k).ng := by rw [hm] at hr'; omega
        have := ((hlam k hk).2 _ hi).1
        rw [show (q.st k).nb + (r - (q.st k).nb) = r by omega] at this
        rw [this]; exact hy k hk _ (by omega)
    · unfold Stage.gapL
      rw [(sl_zero hs hk (w.ux k) hr').1, add_zero]
      by_cases e : r < (q.st k).nb
      · have hlt := hb k hk r e
        rw [((hlam k hk).1 r e).1, lhsb k r e, ← hr.zpos hk hlt]
        have h1 := ((hh k hk).bndz (hb k hk) r e).1
        rw [← h1]
        exact (h.low k hk _ (by rw [nvk k hk]; exact zpos_lt hlt)).2.2
      · have hi : r - (q.st k).nb < (q.st k).ng := by rw [hm] at hr'; omega
        have h1 := ((hlam k hk).2 _ hi).1
        have h2 := (h.rlow k hk _ hi).2
        rw [row_eq hs hh hr hk hi, show ((prob q st).st k).dLow = (st k).dLow from rfl, (hh k hk).dLow _ hi, nvk k hk] at h2
        rw [show (q.st k).nb + (r - (q.st k).nb) = r by omega] at h1 h2
        rw [h1]; exact h2
  · refine ⟨?_, fun e => absurd e (by rw [one k hk]; exact one_ne_zero), fun _ => ?_⟩
    · by_cases e : r < (q.st k).nb
      · rw [((hlam k hk).1 r e).2]
        exact hy k hk _ (by have := zpos_lt (nx := q.nx 0) (nu := q.nu k) (hb k hk r e); omega)
      · have hi : r - (q.st k).nb < (q.st k).ng := by rw [hm] at hr'; omega
        have := ((hlam k hk).2 _ hi).2
        rw [show (q.st k).nb + (r - (q.st k).nb) = r by omega] at this
        rw [this]; exact hy k hk _ (by omega)
    · unfold Stage.gapU
      rw [(sl_zero hs hk (w.ux k) hr').2, add_zero]
      by_cases e : r < (q.st k).nb
      · have hlt := hb k hk r e
        rw [((hlam k hk).1 r e).2, lhsb k r e, ← hr.zpos hk hlt]
        have h1 := ((hh k hk).bndz (hb k hk) r e).2
        have h2 := (h.upp k hk _ (by rw [nvk k hk]; exact zpos_lt hlt)).2.2
        rw [show ((prob q st).st k).zUpp = (st k).zUpp from rfl, h1] at h2
        rw [hm, ← h2]; ring
      · have hi : r - (q.st k).nb < (q.st k).ng := by rw [hm] at hr'; omega
        have h1 := ((hlam k hk).2 _ hi).2
        have h2 := (h.rupp k hk _ hi).2
        rw [row_eq hs hh hr hk hi, show ((prob q st).st k).dUpp = (st k).dUpp from rfl, (hh k hk).dUpp _ hi, nvk k hk,
          show 2 * (q.st k).nb + (q.st k).ng + (r - (q.st k).nb) = (q.st k).m + r by rw [hm]; omega] at h2
        rw [show (q.st k).nb + (r - (q.st k).nb) = r by omega] at h1 h2
        rw [h1, ← h2]; ring
  · rw [hs.ns k hk] at hj; omega

end Acados.Dunes
