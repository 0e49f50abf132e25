import Verif.Spec.OcpQp
import Mathlib.Algebra.BigOperators.Ring.Finset
import Mathlib.Algebra.Order.BigOperators.Group.Finset
import Mathlib.Algebra.Order.BigOperators.Ring.Finset
import Mathlib.Algebra.BigOperators.Intervals
import Mathlib.Tactic.Linarith
import Mathlib.Tactic.NormNum
import Mathlib.Tactic.Ring
import Mathlib.Tactic.Positivity
import Mathlib.Tactic.FieldSimp
import Mathlib.Tactic.LinearCombination
/-!
# Auxiliary facts for the QP scaling
-/
namespace Acados.QpScal
open Finset
variable {K : Type*} [Field K] [LinearOrder K] [IsStrictOrderedRing K]

/-! ## two QPs related by scaling -/

/-- `q'` arises from `q` by the factors `f` (objective), `ρ` (rows), `T` (slacks); `w` is a point of
`q'` and `w'` the corresponding point of `q` -/
structure Rel (q q' : Qp K) (w w' : Sol K) (f : K) (ρ T : Nat → Nat → K) : Prop where
  f_pos : 0 < f
  N : q'.N = q.N
  nx : q'.nx = q.nx
  nu : q'.nu = q.nu
  nux : ∀ i ≤ q.N, (q'.st i).nux = (q.st i).nux
  nb : ∀ i ≤ q.N, (q'.st i).nb = (q.st i).nb
  ng : ∀ i ≤ q.N, (q'.st i).ng = (q.st i).ng
  ns : ∀ i ≤ q.N, (q'.st i).ns = (q.st i).ns
  B : ∀ i ≤ q.N, (q'.st i).BAbt = (q.st i).BAbt
  b : ∀ i ≤ q.N, (q'.st i).b = (q.st i).b
  mask : ∀ i ≤ q.N, (q'.st i).mask = (q.st i).mask
  idxb : ∀ i ≤ q.N, (q'.st i).idxb = (q.st i).idxb
  idxs : ∀ i ≤ q.N, (q'.st i).idxs = (q.st i).idxs
  ρ_pos : ∀ i ≤ q.N, ∀ r < (q.st i).m, 0 < ρ i r
  ρ_bnd : ∀ i ≤ q.N, ∀ r < (q.st i).nb, ρ i r = 1
  T_pos : ∀ i ≤ q.N, ∀ k < 2 * (q.st i).ns, 0 < T i k
  T_row : ∀ i ≤ q.N, ∀ r < (q.st i).m, ∀ k : Nat, (q.st i).idxs r = (k : Int) →
    k < (q.st i).ns ∧ T i k = ρ i r ∧ T i ((q.st i).ns + k) = ρ i r
  H : ∀ i ≤ q.N, ∀ r < (q.st i).nux, ∀ c < (q.st i).nux, (q'.st i).H r c = f * (q.st i).H r c
  g : ∀ i ≤ q.N, ∀ r < (q.st i).nux, (q'.st i).g r = f * (q.st i).g r
  gs : ∀ i ≤ q.N, ∀ k < 2 * (q.st i).ns,
    (q'.st i).g ((q.st i).nux + k) = f * (q.st i).g ((q.st i).nux + k) / T i k
  Z : ∀ i ≤ q.N, ∀ k < 2 * (q.st i).ns, (q'.st i).Z k = f * (q.st i).Z k / T i k ^ 2
  D : ∀ i ≤ q.N, ∀ r < (q.st i).nux, ∀ j < (q.st i).ng,
    (q'.st i).DCt r j = ρ i ((q.st i).nb + j) * (q.st i).DCt r j
  dl : ∀ i ≤ q.N, ∀ r < (q.st i).m, (q.st i).mask r ≠ 0 →
    (q'.st i).d r = ρ i r * (q.st i).d r
  du : ∀ i ≤ q.N, ∀ r < (q.st i).m, (q.st i).mask ((q.st i).m + r) ≠ 0 →
    (q'.st i).d ((q.st i).m + r) = ρ i r * (q.st i).d ((q.st i).m + r)
  ds : ∀ i ≤ q.N, ∀ k < 2 * (q.st i).ns,
    (q'.st i).d (2 * (q.st i).m + k) = T i k * (q.st i).d (2 * (q.st i).m + k)
  ux : ∀ i ≤ q.N, ∀ r < (q.st i).nux, w'.ux i r = w.ux i r
  us : ∀ i ≤ q.N, ∀ k < 2 * (q.st i).ns,
    w'.ux i ((q.st i).nux + k) = w.ux i ((q.st i).nux + k) / T i k
  pi : ∀ i < q.N, ∀ c < q.nx (i + 1), w'.pi i c = w.pi i c / f
  ll : ∀ i ≤ q.N, ∀ r < (q.st i).m, w'.lam i r = ρ i r * w.lam i r / f
  lu : ∀ i ≤ q.N, ∀ r < (q.st i).m,
    w'.lam i ((q.st i).m + r) = ρ i r * w.lam i ((q.st i).m + r) / f
  ls : ∀ i ≤ q.N, ∀ k < 2 * (q.st i).ns,
    w'.lam i (2 * (q.st i).m + k) = T i k * w.lam i (2 * (q.st i).m + k) / f

section
variable {q q' : Qp K} {w w' : Sol K} {f : K} {ρ T : Nat → Nat → K}

theorem Rel.m_eq (h : Rel q q' w w' f ρ T) (i : Nat) (hi : i ≤ q.N) :
    (q'.st i).m = (q.st i).m := by
  unfold Stage.m; rw [h.nb i hi, h.ng i hi]

theorem Rel.lhs (h : Rel q q' w w' f ρ T) (hq : WF q) (i : Nat) (hi : i ≤ q.N) (r : Nat)
    (hr : r < (q.st i).m) : (q'.st i).lhs (w.ux i) r = ρ i r * (q.st i).lhs (w'.ux i) r := by
  unfold Stage.lhs
  rw [h.nb i hi, h.nux i hi, h.idxb i hi]
  split
  · next hb => rw [h.ρ_bnd i hi r hb, one_mul, h.ux i hi _ (hq.idxb i r hb)]
  · next hb =>
    unfold Stage.m at hr
    rw [mul_sum]
    refine sum_congr rfl fun c hc => ?_
    rw [h.D i hi c (mem_range.1 hc) (r - (q.st i).nb) (by omega),
      show (q.st i).nb + (r - (q.st i).nb) = r by omega, h.ux i hi c (mem_range.1 hc)]
    ring

theorem Rel.slU (h : Rel q q' w w' f ρ T) (i : Nat) (hi : i ≤ q.N) (r : Nat)
    (hr : r < (q.st i).m) : (q'.st i).sl (w.ux i) r = ρ i r * (q.st i).sl (w'.ux i) r ∧
      (q'.st i).su (w.ux i) r = ρ i r * (q.st i).su (w'.ux i) r := by
  unfold Stage.sl Stage.su
  rw [h.nux i hi, h.idxs i hi, h.ns i hi]
  split
  · next hp =>
    obtain ⟨k, hk⟩ := Int.eq_ofNat_of_zero_le hp
    obtain ⟨hkn, h1, h2⟩ := h.T_row i hi r hr k hk
    have hρ := (h.ρ_pos i hi r hr).ne'
    rw [hk, Int.toNat_natCast]
    constructor
    · rw [h.us i hi k (by omega), h1]; field_simp
    · rw [add_assoc, h.us i hi ((q.st i).ns + k) (by omega), h2]; field_simp
  · simp

theorem Rel.gapL (h : Rel q q' w w' f ρ T) (hq : WF q) (i : Nat) (hi : i ≤ q.N) (r : Nat)
    (hr : r < (q.st i).m) (hm : (q.st i).mask r ≠ 0) :
    (q'.st i).gapL (w.ux i) r = ρ i r * (q.st i).gapL (w'.ux i) r := by
  unfold Stage.gapL
  rw [h.lhs hq i hi r hr, (h.slU i hi r hr).1, h.dl i hi r hr hm]; ring

theorem Rel.gapU (h : Rel q q' w w' f ρ T) (hq : WF q) (i : Nat) (hi : i ≤ q.N) (r : Nat)
    (hr : r < (q.st i).m) (hm : (q.st i).mask ((q.st i).m + r) ≠ 0) :
    (q'.st i).gapU (w.ux i) r = ρ i r * (q.st i).gapU (w'.ux i) r := by
  unfold Stage.gapU
  rw [h.lhs hq i hi r hr, (h.slU i hi r hr).2, h.m_eq i hi, h.du i hi r hr hm]; ring

theorem Rel.gapS (h : Rel q q' w w' f ρ T) (i : Nat) (hi : i ≤ q.N) (k : Nat)
    (hk : k < 2 * (q.st i).ns) :
    (q'.st i).gapS (w.ux i) k = T i k * (q.st i).gapS (w'.ux i) k := by
  unfold Stage.gapS
  have := (h.T_pos i hi k hk).ne'
  rw [h.m_eq i hi, h.nux i hi, h.us i hi k hk, h.ds i hi k hk]; field_simp

theorem Rel.feasible (h : Rel q q' w w' f ρ T) (hq : WF q) :
    Feasible q' w.ux ↔ Feasible q w'.ux := by
  have key : ∀ i < q.N, ∀ c < q.nx (i + 1),
      ((∑ r ∈ range (q'.st i).nux, (q'.st i).BAbt r c * w.ux i r) + (q'.st i).b c
        = w.ux (i + 1) (q.nu (i + 1) + c)) ↔
      ((∑ r ∈ range (q.st i).nux, (q.st i).BAbt r c * w'.ux i r) + (q.st i).b c
        = w'.ux (i + 1) (q.nu (i + 1) + c)) := by
    intro i hi c hc
    rw [h.nux i hi.le, h.B i hi.le, h.b i hi.le, h.ux (i + 1) hi _ (by rw [hq.nux]; omega)]
    have : ∑ r ∈ range (q.st i).nux, (q.st i).BAbt r c * w.ux i r
        = ∑ r ∈ range (q.st i).nux, (q.st i).BAbt r c * w'.ux i r :=
      sum_congr rfl fun r hr => by rw [h.ux i hi.le r (mem_range.1 hr)]
    rw [this]
  constructor
  · intro F
    refine ⟨fun i hi c hc => ?_, fun i hi r hr hm => ?_, fun i hi r hr hm => ?_,
      fun i hi k hk hm => ?_⟩
    · have := F.dyn i (by rw [h.N]; exact hi) c (by rw [h.nx]; exact hc)
      rw [h.nu] at this
      exact (key i hi c hc).1 this
    · have := F.low i (by rw [h.N]; exact hi) r (by rw [h.m_eq i hi]; exact hr)
        (by rw [h.mask i hi]; exact hm)
      rw [h.gapL hq i hi r hr hm] at this
      exact (mul_nonneg_iff_of_pos_left (h.ρ_pos i hi r hr)).1 this
    · have := F.upp i (by rw [h.N]; exact hi) r (by rw [h.m_eq i hi]; exact hr)
        (by rw [h.mask i hi, h.m_eq i hi]; exact hm)
      rw [h.gapU hq i hi r hr hm] at this
      exact (mul_nonneg_iff_of_pos_left (h.ρ_pos i hi r hr)).1 this
    · have := F.slk i (by rw [h.N]; exact hi) k (by rw [h.ns i hi]; exact hk)
        (by rw [h.mask i hi, h.m_eq i hi]; exact hm)
      rw [h.gapS i hi k hk] at this
      exact (mul_nonneg_iff_of_pos_left (h.T_pos i hi k hk)).1 this
  · intro F
    have hN := h.N
    refine ⟨fun i hi c hc => ?_, fun i hi r hr hm => ?_, fun i hi r hr hm => ?_,
      fun i hi k hk hm => ?_⟩
    · rw [hN] at hi
      rw [h.nx] at hc
      rw [h.nu]
      exact (key i hi c hc).2 (F.dyn i hi c hc)
    · rw [hN] at hi
      rw [h.m_eq i hi] at hr
      rw [h.mask i hi] at hm
      rw [h.gapL hq i hi r hr hm]
      exact mul_nonneg (h.ρ_pos i hi r hr).le (F.low i hi r hr hm)
    · rw [hN] at hi
      rw [h.m_eq i hi] at hr hm
      rw [h.mask i hi] at hm
      rw [h.gapU hq i hi r hr hm]
      exact mul_nonneg (h.ρ_pos i hi r hr).le (F.upp i hi r hr hm)
    · rw [hN] at hi
      rw [h.ns i hi] at hk
      rw [h.mask i hi, h.m_eq i hi] at hm
      rw [h.gapS i hi k hk]
      exact mul_nonneg (h.T_pos i hi k hk).le (F.slk i hi k hk hm)

theorem Rel.value (h : Rel q q' w w' f ρ T) : value q' w.ux = f * value q w'.ux := by
  unfold QpScal.value
  rw [h.N, mul_sum]
  refine sum_congr rfl fun i hi => ?_
  have hi : i ≤ q.N := by have := mem_range.1 hi; omega
  rw [h.nux i hi, h.ns i hi]
  have e1 : ∑ r ∈ range (q.st i).nux, w.ux i r *
        ∑ c ∈ range (q.st i).nux, (q'.st i).H r c * w.ux i c
      = f * ∑ r ∈ range (q.st i).nux, w'.ux i r *
        ∑ c ∈ range (q.st i).nux, (q.st i).H r c * w'.ux i c := by
    rw [mul_sum]
    refine sum_congr rfl fun r hr => ?_
    rw [h.ux i hi r (mem_range.1 hr), mul_sum, mul_sum, mul_sum]
    refine sum_congr rfl fun c hc => ?_
    rw [h.H i hi r (mem_range.1 hr) c (mem_range.1 hc), h.ux i hi c (mem_range.1 hc)]
    ring
  have e2 : ∑ r ∈ range (q.st i).nux, (q'.st i).g r * w.ux i r
      = f * ∑ r ∈ range (q.st i).nux, (q.st i).g r * w'.ux i r := by
    rw [mul_sum]
    refine sum_congr rfl fun r hr => ?_
    rw [h.g i hi r (mem_range.1 hr), h.ux i hi r (mem_range.1 hr)]
    ring
  have e3 : ∑ k ∈ range (2 * (q.st i).ns),
        ((1/2) * (q'.st i).Z k * w.ux i ((q.st i).nux + k) ^ 2 +
          (q'.st i).g ((q.st i).nux + k) * w.ux i ((q.st i).nux + k))
      = f * ∑ k ∈ range (2 * (q.st i).ns),
        ((1/2) * (q.st i).Z k * w'.ux i ((q.st i).nux + k) ^ 2 +
          (q.st i).g ((q.st i).nux + k) * w'.ux i ((q.st i).nux + k)) := by
    rw [mul_sum]
    refine sum_congr rfl fun k hk => ?_
    have hk := mem_range.1 hk
    have := (h.T_pos i hi k hk).ne'
    rw [h.Z i hi k hk, h.gs i hi k hk, h.us i hi k hk]
    field_simp
  rw [e1, e2, e3]
  ring

theorem Rel.lagUx (h : Rel q q' w w' f ρ T) (hq : WF q) (i : Nat) (hi : i ≤ q.N) (r : Nat)
    (hr : r < (q.st i).nux) : lagUx q' w i r = f * lagUx q w' i r := by
  have hf := h.f_pos.ne'
  unfold QpScal.lagUx
  rw [h.nux i hi, h.N, h.nx, h.nu, h.nb i hi, h.ng i hi, h.m_eq i hi, h.B i hi, h.idxb i hi]
  have e1 : ∑ c ∈ range (q.st i).nux, (q'.st i).H r c * w.ux i c
      = f * ∑ c ∈ range (q.st i).nux, (q.st i).H r c * w'.ux i c := by
    rw [mul_sum]
    refine sum_congr rfl fun c hc => ?_
    rw [h.H i hi r hr c (mem_range.1 hc), h.ux i hi c (mem_range.1 hc)]
    ring
  have e2 : (if i < q.N then ∑ c ∈ range (q.nx (i + 1)), (q.st i).BAbt r c * w.pi i c else 0)
      = f * (if i < q.N then ∑ c ∈ range (q.nx (i + 1)), (q.st i).BAbt r c * w'.pi i c else 0) := by
    split
    · next hN =>
      rw [mul_sum]
      refine sum_congr rfl fun c hc => ?_
      rw [h.pi i hN c (mem_range.1 hc)]; field_simp
    · simp
  have e3 : (if 0 < i ∧ q.nu i ≤ r then w.pi (i - 1) (r - q.nu i) else 0)
      = f * (if 0 < i ∧ q.nu i ≤ r then w'.pi (i - 1) (r - q.nu i) else 0) := by
    split
    · next hN =>
      rw [h.pi (i - 1) (by omega) (r - q.nu i) (by
        rw [show i - 1 + 1 = i by omega]; have := hq.nux i; omega)]
      field_simp
    · simp
  have e4 : (∑ j ∈ range (q.st i).nb, if (q.st i).idxb j = r then
        w.lam i j - w.lam i ((q.st i).m + j) else 0)
      = f * (∑ j ∈ range (q.st i).nb, if (q.st i).idxb j = r then
        w'.lam i j - w'.lam i ((q.st i).m + j) else 0) := by
    rw [mul_sum]
    refine sum_congr rfl fun j hj => ?_
    have hj := mem_range.1 hj
    have hjm : j < (q.st i).m := by unfold Stage.m; omega
    rw [h.ll i hi j hjm, h.lu i hi j hjm, h.ρ_bnd i hi j hj]
    split
    · field_simp
    · simp
  have e5 : ∑ j ∈ range (q.st i).ng, (q'.st i).DCt r j *
        (w.lam i ((q.st i).nb + j) - w.lam i ((q.st i).m + ((q.st i).nb + j)))
      = f * ∑ j ∈ range (q.st i).ng, (q.st i).DCt r j *
        (w'.lam i ((q.st i).nb + j) - w'.lam i ((q.st i).m + ((q.st i).nb + j))) := by
    rw [mul_sum]
    refine sum_congr rfl fun j hj => ?_
    have hj := mem_range.1 hj
    have hjm : (q.st i).nb + j < (q.st i).m := by unfold Stage.m; omega
    rw [h.D i hi r hr j hj, h.ll i hi _ hjm, h.lu i hi _ hjm]
    field_simp
  rw [e1, e2, e3, e4, e5, h.g i hi r hr]
  ring

theorem Rel.lagS (h : Rel q q' w w' f ρ T) (i : Nat) (hi : i ≤ q.N) (k : Nat)
    (hk : k < (q.st i).ns) :
    T i k * lagSl q' w i k = f * lagSl q w' i k ∧
    T i ((q.st i).ns + k) * lagSu q' w i k = f * lagSu q w' i k := by
  have hf := h.f_pos.ne'
  have t1 := (h.T_pos i hi k (by omega)).ne'
  have t2 := (h.T_pos i hi ((q.st i).ns + k) (by omega)).ne'
  have e1 : T i k * ∑ r ∈ range (q.st i).m, (if (q.st i).idxs r = (k : Int) then w.lam i r else 0)
      = f * ∑ r ∈ range (q.st i).m, (if (q.st i).idxs r = (k : Int) then w'.lam i r else 0) := by
    rw [mul_sum, mul_sum]
    refine sum_congr rfl fun r hr => ?_
    have hr := mem_range.1 hr
    split
    · next he =>
      rw [(h.T_row i hi r hr k he).2.1, h.ll i hi r hr]; field_simp
    · simp
  have e2 : T i ((q.st i).ns + k) * ∑ r ∈ range (q.st i).m,
        (if (q.st i).idxs r = (k : Int) then w.lam i ((q.st i).m + r) else 0)
      = f * ∑ r ∈ range (q.st i).m,
        (if (q.st i).idxs r = (k : Int) then w'.lam i ((q.st i).m + r) else 0) := by
    rw [mul_sum, mul_sum]
    refine sum_congr rfl fun r hr => ?_
    have hr := mem_range.1 hr
    split
    · next he =>
      rw [(h.T_row i hi r hr k he).2.2, h.lu i hi r hr]; field_simp
    · simp
  unfold lagSl lagSu
  rw [h.nux i hi, h.ns i hi, h.m_eq i hi, h.idxs i hi]
  constructor
  · rw [h.Z i hi k (by omega), h.gs i hi k (by omega), h.us i hi k (by omega),
      h.ls i hi k (by omega)]
    have e3 : T i k * (f * (q.st i).Z k / T i k ^ 2 * w.ux i ((q.st i).nux + k)
        + f * (q.st i).g ((q.st i).nux + k) / T i k - w.lam i (2 * (q.st i).m + k))
        = f * ((q.st i).Z k * (w.ux i ((q.st i).nux + k) / T i k) + (q.st i).g ((q.st i).nux + k)
          - T i k * w.lam i (2 * (q.st i).m + k) / f) := by
      field_simp
    linear_combination e3 - e1
  · rw [h.Z i hi _ (by omega : (q.st i).ns + k < 2 * (q.st i).ns),
      h.gs i hi _ (by omega : (q.st i).ns + k < 2 * (q.st i).ns),
      h.us i hi _ (by omega : (q.st i).ns + k < 2 * (q.st i).ns),
      h.ls i hi _ (by omega : (q.st i).ns + k < 2 * (q.st i).ns)]
    set T2 := T i ((q.st i).ns + k)
    have e3 : T2 * (f * (q.st i).Z ((q.st i).ns + k) / T2 ^ 2 * w.ux i ((q.st i).nux + ((q.st i).ns + k))
        + f * (q.st i).g ((q.st i).nux + ((q.st i).ns + k)) / T2
        - w.lam i (2 * (q.st i).m + ((q.st i).ns + k)))
        = f * ((q.st i).Z ((q.st i).ns + k) * (w.ux i ((q.st i).nux + ((q.st i).ns + k)) / T2)
          + (q.st i).g ((q.st i).nux + ((q.st i).ns + k))
          - T2 * w.lam i (2 * (q.st i).m + ((q.st i).ns + k)) / f) := by
      field_simp
    linear_combination e3 - e2

omit [LinearOrder K] [IsStrictOrderedRing K] in
theorem scaled_zero {a b x y : K} (ha : a ≠ 0) (hb : b ≠ 0) (h : a * x = b * y) : x = 0 ↔ y = 0 := by
  constructor
  · intro hx
    rw [hx, mul_zero] at h
    exact (mul_eq_zero.1 h.symm).resolve_left hb
  · intro hy
    rw [hy, mul_zero] at h
    exact (mul_eq_zero.1 h).resolve_left ha

theorem mult_iff {f c l l' g g' : K} {P : Prop} (hf : 0 < f) (hc : 0 < c) (hl : l' = c * l / f)
    (hg : ¬ P → g = c * g') :
    (0 ≤ l ∧ (P → l = 0) ∧ (¬ P → l * g = 0)) ↔ (0 ≤ l' ∧ (P → l' = 0) ∧ (¬ P → l' * g' = 0)) := by
  have hcf : 0 < c / f := div_pos hc hf
  have h1 : l' = c / f * l := by rw [hl]; ring
  have hz : l' = 0 ↔ l = 0 := by
    rw [h1, mul_eq_zero]; simp [hcf.ne']
  have hn : 0 ≤ l' ↔ 0 ≤ l := by rw [h1]; exact mul_nonneg_iff_of_pos_left hcf
  rw [hz, hn]
  refine and_congr_right fun _ => and_congr_right fun _ => forall_congr' fun hP => ?_
  rw [hg hP, mul_eq_zero, mul_eq_zero, mul_eq_zero, hz]
  simp [hc.ne']

theorem Rel.kkt (h : Rel q q' w w' f ρ T) (hq : WF q) : Kkt q' w ↔ Kkt q w' := by
  have hL : ∀ i ≤ q.N, ∀ r < (q.st i).m, _ := fun i (hi : i ≤ q.N) r (hr : r < (q.st i).m) =>
    mult_iff (P := (q.st i).mask r = 0) h.f_pos (h.ρ_pos i hi r hr) (h.ll i hi r hr)
      (fun hm => h.gapL hq i hi r hr hm)
  have hU : ∀ i ≤ q.N, ∀ r < (q.st i).m, _ := fun i (hi : i ≤ q.N) r (hr : r < (q.st i).m) =>
    mult_iff (P := (q.st i).mask ((q.st i).m + r) = 0) h.f_pos (h.ρ_pos i hi r hr)
      (h.lu i hi r hr) (fun hm => h.gapU hq i hi r hr hm)
  have hS : ∀ i ≤ q.N, ∀ k < 2 * (q.st i).ns, _ :=
    fun i (hi : i ≤ q.N) k (hk : k < 2 * (q.st i).ns) =>
    mult_iff (P := (q.st i).mask (2 * (q.st i).m + k) = 0) h.f_pos (h.T_pos i hi k hk)
      (h.ls i hi k hk) (fun _ => h.gapS i hi k hk)
  have hN := h.N
  constructor
  · intro F
    refine ⟨(h.feasible hq).1 F.feas, fun i hi r hr => ?_, fun i hi k hk => ?_,
      fun i hi k hk => ?_, fun i hi r hr => ?_, fun i hi r hr => ?_, fun i hi k hk => ?_⟩
    · have := F.statUx i (by rw [hN]; exact hi) r (by rw [h.nux i hi]; exact hr)
      rw [h.lagUx hq i hi r hr] at this
      exact (mul_eq_zero.1 this).resolve_left h.f_pos.ne'
    · exact (scaled_zero (h.T_pos i hi k (by omega)).ne' h.f_pos.ne' (h.lagS i hi k hk).1).1
        (F.statSl i (by rw [hN]; exact hi) k (by rw [h.ns i hi]; exact hk))
    · exact (scaled_zero (h.T_pos i hi _ (by omega)).ne' h.f_pos.ne' (h.lagS i hi k hk).2).1
        (F.statSu i (by rw [hN]; exact hi) k (by rw [h.ns i hi]; exact hk))
    · have := F.low i (by rw [hN]; exact hi) r (by rw [h.m_eq i hi]; exact hr)
      rw [h.mask i hi] at this
      exact (hL i hi r hr).1 this
    · have := F.upp i (by rw [hN]; exact hi) r (by rw [h.m_eq i hi]; exact hr)
      rw [h.mask i hi, h.m_eq i hi] at this
      exact (hU i hi r hr).1 this
    · have := F.slk i (by rw [hN]; exact hi) k (by rw [h.ns i hi]; exact hk)
      rw [h.mask i hi, h.m_eq i hi] at this
      exact (hS i hi k hk).1 this
  · intro F
    refine ⟨(h.feasible hq).2 F.feas, fun i hi r hr => ?_, fun i hi k hk => ?_,
      fun i hi k hk => ?_, fun i hi r hr => ?_, fun i hi r hr => ?_, fun i hi k hk => ?_⟩ <;>
      rw [hN] at hi
    · rw [h.nux i hi] at hr
      rw [h.lagUx hq i hi r hr, F.statUx i hi r hr, mul_zero]
    · rw [h.ns i hi] at hk
      exact (scaled_zero (h.T_pos i hi k (by omega)).ne' h.f_pos.ne' (h.lagS i hi k hk).1).2
        (F.statSl i hi k hk)
    · rw [h.ns i hi] at hk
      exact (scaled_zero (h.T_pos i hi _ (by omega)).ne' h.f_pos.ne' (h.lagS i hi k hk).2).2
        (F.statSu i hi k hk)
    · rw [h.m_eq i hi] at hr
      rw [h.mask i hi]
      exact (hL i hi r hr).2 (F.low i hi r hr)
    · rw [h.m_eq i hi] at hr ⊢
      rw [h.mask i hi]
      exact (hU i hi r hr).2 (F.upp i hi r hr)
    · rw [h.ns i hi] at hk
      rw [h.mask i hi, h.m_eq i hi]
      exact (hS i hi k hk).2 (F.slk i hi k hk)

end

/-! ## closed form of the constraint loop -/

omit [LinearOrder K] [IsStrictOrderedRing K] in
theorem mulAt_apply (x : Nat → K) (k : Nat) (a : K) (j : Nat) :
    mulAt x k a j = if j = k then x j * a else x j := by
  unfold mulAt; rw [Function.update_apply]
  split
  · next h => rw [h]
  · rfl
omit [LinearOrder K] [IsStrictOrderedRing K] in
theorem divAt_apply (x : Nat → K) (k : Nat) (a : K) (j : Nat) :
    divAt x k a j = if j = k then x j / a else x j := by
  unfold divAt; rw [Function.update_apply]
  split
  · next h => rw [h]
  · rfl

omit [LinearOrder K] [IsStrictOrderedRing K] in
theorem mulAt2 (x : Nat → K) (k k' : Nat) (a : K) (hk : k ≠ k') (j : Nat) :
    mulAt (mulAt x k a) k' a j = if j = k ∨ j = k' then x j * a else x j := by
  simp only [mulAt_apply]
  by_cases h1 : j = k
  · rw [if_neg (by omega), if_pos h1, if_pos (Or.inl h1)]
  · by_cases h2 : j = k'
    · rw [if_pos h2, if_neg h1, if_pos (Or.inr h2)]
    · rw [if_neg h2, if_neg h1, if_neg (by omega)]
omit [LinearOrder K] [IsStrictOrderedRing K] in
theorem divAt2 (x : Nat → K) (k k' : Nat) (a : K) (hk : k ≠ k') (j : Nat) :
    divAt (divAt x k a) k' a j = if j = k ∨ j = k' then x j / a else x j := by
  simp only [divAt_apply]
  by_cases h1 : j = k
  · rw [if_neg (by omega), if_pos h1, if_pos (Or.inl h1)]
  · by_cases h2 : j = k'
    · rw [if_pos h2, if_neg h1, if_pos (Or.inr h2)]
    · rw [if_neg h2, if_neg h1, if_neg (by omega)]

/-- product of the factors of the general rows among the first `n` that use slack `k` -/
def tau (s : Stage K) (sc : Nat → K) (n k : Nat) : K :=
  ∏ j ∈ range n, if s.idxs (s.nb + j) = (k : Int) then sc j else 1

omit [LinearOrder K] [IsStrictOrderedRing K] in
theorem tau_succ (s : Stage K) (sc : Nat → K) (n k : Nat) :
    tau s sc (n + 1) k = tau s sc n k * (if s.idxs (s.nb + n) = (k : Int) then sc n else 1) :=
  prod_range_succ _ _

/-- the effect of the first `n` passes -/
structure ConInv (s : Stage K) (t0 : ConState K) (n : Nat) (t : ConState K) : Prop where
  sc : ∀ j < n, t.sc j = conFactor s j
  D : ∀ r < s.nux, ∀ j < n, t.DCt r j = conFactor s j * s.DCt r j
  g : ∀ r < s.nux, t.g r = t0.g r
  gl : ∀ k < s.ns, t.g (s.nux + k) = t0.g (s.nux + k) / tau s (conFactor s) n k
  gu : ∀ k < s.ns, t.g (s.nux + (s.ns + k)) = t0.g (s.nux + (s.ns + k)) / tau s (conFactor s) n k
  Zl : ∀ k < s.ns, t.Z k = t0.Z k / tau s (conFactor s) n k ^ 2
  Zu : ∀ k < s.ns, t.Z (s.ns + k) = t0.Z (s.ns + k) / tau s (conFactor s) n k ^ 2
  dbl : ∀ r < s.nb, t.d r = t0.d r
  dbu : ∀ r < s.nb, t.d (s.nb + s.ng + r) = t0.d (s.nb + s.ng + r)
  dgl : ∀ j < s.ng, t.d (s.nb + j) =
    if j < n ∧ s.mask (s.nb + j) = 1 then t0.d (s.nb + j) * conFactor s j else t0.d (s.nb + j)
  dgu : ∀ j < s.ng, t.d (2 * s.nb + s.ng + j) =
    if j < n ∧ s.mask (2 * s.nb + s.ng + j) = 1 then t0.d (2 * s.nb + s.ng + j) * conFactor s j
    else t0.d (2 * s.nb + s.ng + j)
  dsl : ∀ k < s.ns, t.d (2 * (s.nb + s.ng) + k) =
    t0.d (2 * (s.nb + s.ng) + k) * tau s (conFactor s) n k
  dsu : ∀ k < s.ns, t.d (2 * (s.nb + s.ng) + (s.ns + k)) =
    t0.d (2 * (s.nb + s.ng) + (s.ns + k)) * tau s (conFactor s) n k

theorem conStep_inv (s : Stage K)
    (hs : ∀ r < s.nb + s.ng, s.idxs r = -1 ∨ ∃ k < s.ns, s.idxs r = (k : Int))
    (t0 t : ConState K) (n : Nat) (hn : n < s.ng) (h : ConInv s t0 n t) :
    ConInv s t0 (n + 1) (conStep s t n) := by
  have hsc : ∀ j < n + 1, (conStep s t n).sc j = conFactor s j := by
    intro j hj
    have e : (conStep s t n).sc = Function.update t.sc n (conFactor s n) := by
      unfold conStep; simp only; split <;> rfl
    rw [e, Function.update_apply]
    split
    · next hjn => rw [hjn]
    · exact h.sc j (by omega)
  have hD : ∀ r < s.nux, ∀ j < n + 1, (conStep s t n).DCt r j = conFactor s j * s.DCt r j := by
    intro r hr j hj
    have e : (conStep s t n).DCt =
        fun r c => if r < s.nux ∧ c = n then conFactor s n * s.DCt r c else t.DCt r c := by
      unfold conStep; simp only; split <;> rfl
    rw [e]
    simp only
    split
    · next hjn => rw [hjn.2]
    · next hjn => exact h.D r hr j (by omega)
  rcases hs (s.nb + n) (by omega) with h1 | ⟨k0, hk0, h1⟩
  · -- hard constraint
    have et : ∀ k : Nat, tau s (conFactor s) (n + 1) k = tau s (conFactor s) n k := by
      intro k
      rw [tau_succ, if_neg (by rw [h1]; omega), mul_one]
    have eg : (conStep s t n).g = t.g := by unfold conStep; simp [h1]
    have eZ : (conStep s t n).Z = t.Z := by unfold conStep; simp [h1]
    have ed : ∀ r, (conStep s t n).d r =
        if r = 2 * s.nb + s.ng + n then
          (if s.mask (2 * s.nb + s.ng + n) = 1 then t.d r * conFactor s n else t.d r)
        else if r = s.nb + n then (if s.mask (s.nb + n) = 1 then t.d r * conFactor s n else t.d r)
        else t.d r := by
      intro r
      unfold conStep
      simp only [h1, ne_eq, not_true_eq_false, if_false]
      by_cases m1 : s.mask (s.nb + n) = 1 <;> by_cases m2 : s.mask (2 * s.nb + s.ng + n) = 1
      · rw [if_pos m1, if_pos m2, if_pos m1, if_pos m2, mulAt2 _ _ _ _ (by omega)]
        by_cases r1 : r = 2 * s.nb + s.ng + n
        · rw [if_pos (Or.inr r1), if_pos r1]
        · by_cases r2 : r = s.nb + n
          · rw [if_pos (Or.inl r2), if_neg r1, if_pos r2]
          · rw [if_neg (by omega), if_neg r1, if_neg r2]
      · rw [if_pos m1, if_neg m2, if_pos m1, if_neg m2, mulAt_apply]
        by_cases r1 : r = 2 * s.nb + s.ng + n
        · rw [if_neg (by omega), if_pos r1]
        · rw [if_neg r1]
      · rw [if_neg m1, if_pos m2, if_neg m1, if_pos m2, mulAt_apply]
        by_cases r1 : r = 2 * s.nb + s.ng + n
        · rw [if_pos r1, if_pos r1]
        · rw [if_neg r1, if_neg r1, ite_self]
      · rw [if_neg m1, if_neg m2, if_neg m1, if_neg m2, ite_self, ite_self]
    refine ⟨hsc, hD, ?_, ?_, ?_, ?_, ?_, ?_, ?_, ?_, ?_, ?_, ?_⟩
    · rw [eg]; exact h.g
    · rw [eg]; simp only [et]; exact h.gl
    · rw [eg]; simp only [et]; exact h.gu
    · rw [eZ]; simp only [et]; exact h.Zl
    · rw [eZ]; simp only [et]; exact h.Zu
    · intro r hr
      rw [ed, if_neg (by omega), if_neg (by omega), h.dbl r hr]
    · intro r hr
      rw [ed, if_neg (by omega), if_neg (by omega), h.dbu r hr]
    · intro j hj
      rw [ed, if_neg (by omega), h.dgl j hj]
      by_cases hjn : j = n
      · subst hjn
        simp
      · have e1 : ¬ (s.nb + j = s.nb + n) := by omega
        have e2 : j < n + 1 ↔ j < n := by omega
        rw [if_neg e1]
        simp only [e2]
    · intro j hj
      rw [ed, h.dgu j hj]
      by_cases hjn : j = n
      · subst hjn
        simp
      · have e1 : ¬ (2 * s.nb + s.ng + j = 2 * s.nb + s.ng + n) := by omega
        have e2 : j < n + 1 ↔ j < n := by omega
        rw [if_neg e1, if_neg (by omega)]
        simp only [e2]
    · intro k hk
      rw [ed, if_neg (by omega), if_neg (by omega), et, h.dsl k hk]
    · intro k hk
      rw [ed, if_neg (by omega), if_neg (by omega), et, h.dsu k hk]
  · -- soft constraint
    have h1n : ¬ ((k0 : Int) = -1) := by omega
    have et : ∀ k : Nat, tau s (conFactor s) (n + 1) k =
        if k = k0 then tau s (conFactor s) n k * conFactor s n else tau s (conFactor s) n k := by
      intro k
      rw [tau_succ, h1]
      by_cases hk : k = k0
      · simp [hk]
      · rw [if_neg (by omega), mul_one, if_neg hk]
    have eg : ∀ r, (conStep s t n).g r = if r = s.nux + k0 ∨ r = s.nux + (s.ns + k0) then
        t.g r / conFactor s n else t.g r := by
      intro r
      unfold conStep
      simp only [h1, ne_eq, h1n, not_false_eq_true, if_true, Int.toNat_natCast]
      rw [divAt2 _ _ _ _ (by omega), add_assoc]
    have eZ : ∀ r, (conStep s t n).Z r = if r = k0 ∨ r = s.ns + k0 then
        t.Z r / (conFactor s n * conFactor s n) else t.Z r := by
      intro r
      unfold conStep
      simp only [h1, ne_eq, h1n, not_false_eq_true, if_true, Int.toNat_natCast]
      rw [divAt2 _ _ _ _ (by omega)]
    have ed : ∀ r, (conStep s t n).d r =
        if r = 2 * s.nb + s.ng + n then
          (if s.mask (2 * s.nb + s.ng + n) = 1 then t.d r * conFactor s n else t.d r)
        else if r = s.nb + n then (if s.mask (s.nb + n) = 1 then t.d r * conFactor s n else t.d r)
        else if r = 2 * (s.nb + s.ng) + k0 ∨ r = 2 * (s.nb + s.ng) + (s.ns + k0) then
          t.d r * conFactor s n else t.d r := by
      intro r
      unfold conStep
      simp only [h1, ne_eq, h1n, not_false_eq_true, if_true, Int.toNat_natCast]
      have ea : (mulAt (mulAt t.d (2 * (s.nb + s.ng) + k0) (conFactor s n))
          (2 * (s.nb + s.ng) + s.ns + k0) (conFactor s n)) r =
          if r = 2 * (s.nb + s.ng) + k0 ∨ r = 2 * (s.nb + s.ng) + (s.ns + k0) then
          t.d r * conFactor s n else t.d r := by
        rw [mulAt2 _ _ _ _ (by omega), add_assoc]
      by_cases r1 : r = 2 * s.nb + s.ng + n
      · have r3 : ¬ (r = s.nb + n) := by omega
        have r4 : ¬ (r = 2 * (s.nb + s.ng) + k0 ∨ r = 2 * (s.nb + s.ng) + (s.ns + k0)) := by omega
        rw [if_neg r4] at ea
        rw [if_pos r1]
        by_cases m1 : s.mask (s.nb + n) = 1 <;> by_cases m2 : s.mask (2 * s.nb + s.ng + n) = 1 <;>
          simp only [m1, m2, if_true, if_false] <;>
          (repeat rw [mulAt_apply (k := s.nb + n), if_neg r3] ) <;>
          (repeat rw [mulAt_apply (k := 2 * s.nb + s.ng + n), if_pos r1]) <;>
          (repeat rw [mulAt_apply (k := s.nb + n), if_neg r3]) <;> rw [ea]
      · rw [if_neg r1]
        by_cases r3 : r = s.nb + n
        · have r4 : ¬ (r = 2 * (s.nb + s.ng) + k0 ∨ r = 2 * (s.nb + s.ng) + (s.ns + k0)) := by omega
          rw [if_neg r4] at ea
          rw [if_pos r3]
          by_cases m1 : s.mask (s.nb + n) = 1 <;> by_cases m2 : s.mask (2 * s.nb + s.ng + n) = 1 <;>
            simp only [m1, m2, if_true, if_false] <;>
            (repeat rw [mulAt_apply (k := 2 * s.nb + s.ng + n), if_neg r1]) <;>
            (repeat rw [mulAt_apply (k := s.nb + n), if_pos r3]) <;> rw [ea]
        · rw [if_neg r3, ← ea]
          by_cases m1 : s.mask (s.nb + n) = 1 <;> by_cases m2 : s.mask (2 * s.nb + s.ng + n) = 1 <;>
            simp only [m1, m2, if_true, if_false] <;>
            (repeat rw [mulAt_apply (k := 2 * s.nb + s.ng + n), if_neg r1]) <;>
            (repeat rw [mulAt_apply (k := s.nb + n), if_neg r3])
    refine ⟨hsc, hD, ?_, ?_, ?_, ?_, ?_, ?_, ?_, ?_, ?_, ?_, ?_⟩
    · intro r hr
      rw [eg, if_neg (by omega)]; exact h.g r hr
    · intro k hk
      rw [eg, et, h.gl k hk]
      by_cases hkk : k = k0
      · rw [if_pos (by omega), if_pos hkk, div_div]
      · rw [if_neg (by omega), if_neg hkk]
    · intro k hk
      rw [eg, et, h.gu k hk]
      by_cases hkk : k = k0
      · rw [if_pos (by omega), if_pos hkk, div_div]
      · rw [if_neg (by omega), if_neg hkk]
    · intro k hk
      rw [eZ, et, h.Zl k hk]
      by_cases hkk : k = k0
      · rw [if_pos (by omega), if_pos hkk, div_div, mul_pow, ← sq]
      · rw [if_neg (by omega), if_neg hkk]
    · intro k hk
      rw [eZ, et, h.Zu k hk]
      by_cases hkk : k = k0
      · rw [if_pos (by omega), if_pos hkk, div_div, mul_pow, ← sq]
      · rw [if_neg (by omega), if_neg hkk]
    · intro r hr
      rw [ed, if_neg (by omega), if_neg (by omega), if_neg (by omega), h.dbl r hr]
    · intro r hr
      rw [ed, if_neg (by omega), if_neg (by omega), if_neg (by omega), h.dbu r hr]
    · intro j hj
      rw [ed, if_neg (by omega), h.dgl j hj]
      by_cases hjn : j = n
      · subst hjn
        simp
      · have e1 : ¬ (s.nb + j = s.nb + n) := by omega
        have e2 : j < n + 1 ↔ j < n := by omega
        rw [if_neg e1, if_neg (by omega)]
        simp only [e2]
    · intro j hj
      rw [ed, h.dgu j hj]
      by_cases hjn : j = n
      · subst hjn
        simp
      · have e1 : ¬ (2 * s.nb + s.ng + j = 2 * s.nb + s.ng + n) := by omega
        have e2 : j < n + 1 ↔ j < n := by omega
        rw [if_neg e1, if_neg (by omega), if_neg (by omega)]
        simp only [e2]
    · intro k hk
      rw [ed, if_neg (by omega), if_neg (by omega), et, h.dsl k hk]
      by_cases hkk : k = k0
      · rw [if_pos (by omega), if_pos hkk, mul_assoc]
      · rw [if_neg (by omega), if_neg hkk]
    · intro k hk
      rw [ed, if_neg (by omega), if_neg (by omega), et, h.dsu k hk]
      by_cases hkk : k = k0
      · rw [if_pos (by omega), if_pos hkk, mul_assoc]
      · rw [if_neg (by omega), if_neg hkk]

theorem conLoop_inv (s : Stage K)
    (hs : ∀ r < s.nb + s.ng, s.idxs r = -1 ∨ ∃ k < s.ns, s.idxs r = (k : Int))
    (t0 : ConState K) (n : Nat) (hn : n ≤ s.ng) :
    ConInv s t0 n ((List.range n).foldl (conStep s) t0) := by
  induction n with
  | zero => constructor <;> intros <;> first | omega | simp [tau]
  | succ n ih =>
    rw [List.range_succ, List.foldl_append]
    exact conStep_inv s hs t0 _ n (by omega) (ih (by omega))

/-! ## closed form of the rescaling loop -/

structure UnInv (s : Stage K) (sc : Nat → K) (t0 : (Nat → K) × (Nat → K)) (n : Nat)
    (t : (Nat → K) × (Nat → K)) : Prop where
  ux : ∀ r < s.nux, t.1 r = t0.1 r
  sl : ∀ k < s.ns, t.1 (s.nux + k) = t0.1 (s.nux + k) / tau s sc n k
  su : ∀ k < s.ns, t.1 (s.nux + (s.ns + k)) = t0.1 (s.nux + (s.ns + k)) / tau s sc n k
  lbl : ∀ r < s.nb, t.2 r = t0.2 r
  lbu : ∀ r < s.nb, t.2 (s.nb + s.ng + r) = t0.2 (s.nb + s.ng + r)
  lgl : ∀ j < s.ng, t.2 (s.nb + j) = if j < n then t0.2 (s.nb + j) * sc j else t0.2 (s.nb + j)
  lgu : ∀ j < s.ng, t.2 (2 * s.nb + s.ng + j) =
    if j < n then t0.2 (2 * s.nb + s.ng + j) * sc j else t0.2 (2 * s.nb + s.ng + j)
  lsl : ∀ k < s.ns, t.2 (2 * (s.nb + s.ng) + k) = t0.2 (2 * (s.nb + s.ng) + k) * tau s sc n k
  lsu : ∀ k < s.ns, t.2 (2 * (s.nb + s.ng) + (s.ns + k)) =
    t0.2 (2 * (s.nb + s.ng) + (s.ns + k)) * tau s sc n k

theorem unStep_inv (s : Stage K) (sc : Nat → K)
    (hs : ∀ r < s.nb + s.ng, s.idxs r = -1 ∨ ∃ k < s.ns, s.idxs r = (k : Int))
    (t0 t : (Nat → K) × (Nat → K)) (n : Nat) (hn : n < s.ng) (h : UnInv s sc t0 n t) :
    UnInv s sc t0 (n + 1) (unStep s sc t n) := by
  rcases hs (s.nb + n) (by omega) with h1 | ⟨k0, hk0, h1⟩
  · have et : ∀ k : Nat, tau s sc (n + 1) k = tau s sc n k := by
      intro k
      rw [tau_succ, if_neg (by rw [h1]; omega), mul_one]
    have e1 : (unStep s sc t n).1 = t.1 := by unfold unStep; simp [h1]
    have e2 : ∀ r, (unStep s sc t n).2 r = if r = 2 * s.nb + s.ng + n ∨ r = s.nb + n then
        t.2 r * sc n else t.2 r := by
      intro r
      unfold unStep
      simp only [h1, ge_iff_le, show ¬ (0 : Int) ≤ -1 by omega, if_false]
      rw [mulAt2 _ _ _ _ (by omega)]
      simp only [or_comm]
    refine ⟨?_, ?_, ?_, ?_, ?_, ?_, ?_, ?_, ?_⟩
    · rw [e1]; exact h.ux
    · rw [e1]; simp only [et]; exact h.sl
    · rw [e1]; simp only [et]; exact h.su
    · intro r hr; rw [e2, if_neg (by omega), h.lbl r hr]
    · intro r hr; rw [e2, if_neg (by omega), h.lbu r hr]
    · intro j hj
      rw [e2, h.lgl j hj]
      by_cases hjn : j = n
      · rw [if_pos (by omega), if_neg (by omega), if_pos (by omega), hjn]
      · have e3 : j < n + 1 ↔ j < n := by omega
        rw [if_neg (by omega)]; simp only [e3]
    · intro j hj
      rw [e2, h.lgu j hj]
      by_cases hjn : j = n
      · rw [if_pos (by omega), if_neg (by omega), if_pos (by omega), hjn]
      · have e3 : j < n + 1 ↔ j < n := by omega
        rw [if_neg (by omega)]; simp only [e3]
    · intro k hk; rw [e2, if_neg (by omega), et, h.lsl k hk]
    · intro k hk; rw [e2, if_neg (by omega), et, h.lsu k hk]
  · have et : ∀ k : Nat, tau s sc (n + 1) k =
        if k = k0 then tau s sc n k * sc n else tau s sc n k := by
      intro k
      rw [tau_succ, h1]
      by_cases hk : k = k0
      · simp [hk]
      · rw [if_neg (by omega), mul_one, if_neg hk]
    have e1 : ∀ r, (unStep s sc t n).1 r = if r = s.nux + k0 ∨ r = s.nux + (s.ns + k0) then
        t.1 r / sc n else t.1 r := by
      intro r
      unfold unStep
      simp only [h1, ge_iff_le, Int.natCast_nonneg, if_true, Int.toNat_natCast]
      rw [divAt2 _ _ _ _ (by omega), add_assoc]
    have e2 : ∀ r, (unStep s sc t n).2 r = if r = 2 * s.nb + s.ng + n ∨ r = s.nb + n ∨
        r = 2 * (s.nb + s.ng) + k0 ∨ r = 2 * (s.nb + s.ng) + (s.ns + k0) then
        t.2 r * sc n else t.2 r := by
      intro r
      unfold unStep
      simp only [h1, ge_iff_le, Int.natCast_nonneg, if_true, Int.toNat_natCast, mulAt_apply]
      have q1 : 2 * s.nb + 2 * s.ng + k0 = 2 * (s.nb + s.ng) + k0 := by omega
      have q2 : 2 * s.nb + 2 * s.ng + s.ns + k0 = 2 * (s.nb + s.ng) + (s.ns + k0) := by omega
      rw [q1, q2]
      by_cases r1 : r = 2 * s.nb + s.ng + n
      · rw [if_neg (by omega), if_neg (by omega), if_pos r1, if_neg (by omega), if_pos (by omega)]
      · by_cases r2 : r = s.nb + n
        · rw [if_neg (by omega), if_neg (by omega), if_neg r1, if_pos r2, if_pos (by omega)]
        · by_cases r3 : r = 2 * (s.nb + s.ng) + k0
          · rw [if_neg (by omega), if_pos r3, if_neg r1, if_neg r2, if_pos (by omega)]
          · by_cases r4 : r = 2 * (s.nb + s.ng) + (s.ns + k0)
            · rw [if_pos r4, if_neg r3, if_neg r1, if_neg r2, if_pos (by omega)]
            · rw [if_neg r4, if_neg r3, if_neg r1, if_neg r2, if_neg (by omega)]
    refine ⟨?_, ?_, ?_, ?_, ?_, ?_, ?_, ?_, ?_⟩
    · intro r hr; rw [e1, if_neg (by omega), h.ux r hr]
    · intro k hk
      rw [e1, et, h.sl k hk]
      by_cases hkk : k = k0
      · rw [if_pos (by omega), if_pos hkk, div_div]
      · rw [if_neg (by omega), if_neg hkk]
    · intro k hk
      rw [e1, et, h.su k hk]
      by_cases hkk : k = k0
      · rw [if_pos (by omega), if_pos hkk, div_div]
      · rw [if_neg (by omega), if_neg hkk]
    · intro r hr; rw [e2, if_neg (by omega), h.lbl r hr]
    · intro r hr; rw [e2, if_neg (by omega), h.lbu r hr]
    · intro j hj
      rw [e2, h.lgl j hj]
      by_cases hjn : j = n
      · rw [if_pos (by omega), if_neg (by omega), if_pos (by omega), hjn]
      · have e3 : j < n + 1 ↔ j < n := by omega
        rw [if_neg (by omega)]; simp only [e3]
    · intro j hj
      rw [e2, h.lgu j hj]
      by_cases hjn : j = n
      · rw [if_pos (by omega), if_neg (by omega), if_pos (by omega), hjn]
      · have e3 : j < n + 1 ↔ j < n := by omega
        rw [if_neg (by omega)]; simp only [e3]
    · intro k hk
      rw [e2, et, h.lsl k hk]
      by_cases hkk : k = k0
      · rw [if_pos (by omega), if_pos hkk, mul_assoc]
      · rw [if_neg (by omega), if_neg hkk]
    · intro k hk
      rw [e2, et, h.lsu k hk]
      by_cases hkk : k = k0
      · rw [if_pos (by omega), if_pos hkk, mul_assoc]
      · rw [if_neg (by omega), if_neg hkk]

theorem unLoop_inv (s : Stage K) (sc : Nat → K)
    (hs : ∀ r < s.nb + s.ng, s.idxs r = -1 ∨ ∃ k < s.ns, s.idxs r = (k : Int))
    (t0 : (Nat → K) × (Nat → K)) (n : Nat) (hn : n ≤ s.ng) :
    UnInv s sc t0 n ((List.range n).foldl (unStep s sc) t0) := by
  induction n with
  | zero => constructor <;> intros <;> first | omega | simp [tau]
  | succ n ih =>
    rw [List.range_succ, List.foldl_append]
    exact unStep_inv s sc hs t0 _ n (by omega) (ih (by omega))

end Acados.QpScal
