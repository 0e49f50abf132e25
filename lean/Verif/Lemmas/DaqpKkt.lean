import Verif.Lemmas.Daqp
import Mathlib.Tactic.NormNum
import Mathlib.Algebra.Order.Field.Basic
/-!
# From a solution of the LDP to a solution of the QP
-/
namespace Acados.Daqp
open Finset
open Acados.DenseQp (DQp row coef sl su lo up slb slackOf idxsOf WF SS idxsOf_eq)
set_option linter.unusedSectionVars false
variable {K : Type*} [Field K] [LinearOrder K] [IsStrictOrderedRing K]

/-! ### One side of one constraint -/

theorem soft_side (sc Z z ds bd r mlt : K) (hsc : 0 < sc) (hZ : 0 < Z) (hpos : 0 ≤ z + Z * ds)
    (h1 : sc * (r - (bd - z / Z + max 0 (z + Z * ds) / Z))
      ≤ 1 / Z * (sc * sc) * max 0 (mlt - max 0 (z + Z * ds) / sc))
    (h2 : 0 < mlt → sc * (r - (bd - z / Z + max 0 (z + Z * ds) / Z))
      = 1 / Z * (sc * sc) * max 0 (mlt - max 0 (z + Z * ds) / sc)) :
    let k := max 0 (mlt * sc)
    let s := max ds (r - bd)
    r - s ≤ bd ∧ 0 ≤ Z * s + z - k ∧ k * (bd - r + s) = 0 ∧ (Z * s + z - k) * (s - ds) = 0
    ∧ (r < bd + ds → k = 0) := by
  intro k s
  rw [max_eq_right hpos] at h1 h2
  have e1 : bd - z / Z + (z + Z * ds) / Z = bd + ds := by field_simp; ring
  have e2 : 1 / Z * (sc * sc) * max 0 (mlt - (z + Z * ds) / sc) = sc * (max 0 (mlt * sc - (z + Z * ds)) / Z) := by
    have : sc * max 0 (mlt - (z + Z * ds) / sc) = max 0 (mlt * sc - (z + Z * ds)) := by
      rw [mul_max_of_nonneg _ _ hsc.le, mul_zero]
      congr 1
      field_simp
    rw [← this]; ring
  rw [e1, e2] at h1 h2
  have h1' : r - (bd + ds) ≤ max 0 (mlt * sc - (z + Z * ds)) / Z := le_of_mul_le_mul_left h1 hsc
  have h2' : 0 < mlt → r - (bd + ds) = max 0 (mlt * sc - (z + Z * ds)) / Z :=
    fun h => mul_left_cancel₀ hsc.ne' (h2 h)
  by_cases hm : 0 < mlt
  · have h3 := h2' hm
    have hk : k = mlt * sc := max_eq_right (mul_pos hm hsc).le
    by_cases hd : mlt * sc ≤ z + Z * ds
    · rw [max_eq_left (by linarith), zero_div] at h3
      have hs : s = ds := max_eq_left (by linarith)
      rw [hs, hk]
      refine ⟨by linarith, by linarith, ?_, by ring, fun h => by linarith⟩
      have : bd - r + ds = 0 := by linarith
      rw [this, mul_zero]
    · rw [max_eq_right (by linarith)] at h3
      have hp : 0 < (mlt * sc - (z + Z * ds)) / Z := div_pos (by linarith) hZ
      have hs : s = r - bd := max_eq_right (by linarith)
      have h4 : Z * (r - (bd + ds)) = mlt * sc - (z + Z * ds) := by rw [h3]; field_simp
      rw [hs, hk]
      refine ⟨by linarith, by linarith, by ring, ?_, fun h => by linarith⟩
      have : Z * (r - bd) + z - mlt * sc = 0 := by linarith
      rw [this, zero_mul]
  · have hk : k = 0 := max_eq_left (mul_nonpos_of_nonpos_of_nonneg (not_lt.1 hm) hsc.le)
    have hms : mlt * sc ≤ 0 := mul_nonpos_of_nonpos_of_nonneg (not_lt.1 hm) hsc.le
    rw [max_eq_left (by linarith), zero_div] at h1'
    have hs : s = ds := max_eq_left (by linarith)
    rw [hs, hk]
    exact ⟨by linarith, by linarith, by ring, by ring, fun _ => rfl⟩

theorem hard_side (sc bd r mlt : K) (hsc : 0 < sc) (h1 : sc * (r - bd) ≤ 0) (h2 : 0 < mlt → sc * (r - bd) = 0) :
    r ≤ bd ∧ max 0 (mlt * sc) * (bd - r) = 0 ∧ (r < bd → max 0 (mlt * sc) = 0) := by
  have h1' : r - bd ≤ 0 := le_of_mul_le_mul_left (by linarith : sc * (r - bd) ≤ sc * 0) hsc
  by_cases hm : 0 < mlt
  · have : r - bd = 0 := by
      rcases mul_eq_zero.1 (h2 hm) with h | h
      · exact absurd h hsc.ne'
      · exact h
    refine ⟨by linarith, ?_, fun h => by linarith⟩
    rw [show bd - r = 0 by linarith, mul_zero]
  · have hk : max 0 (mlt * sc) = 0 := max_eq_left (mul_nonpos_of_nonpos_of_nonneg (not_lt.1 hm) hsc.le)
    rw [hk]
    exact ⟨by linarith, by ring, fun _ => rfl⟩

/-! ### The transformation of variables -/

/-- value of row `i` (all constraints including equalities) -/
def rowE (q : DQp K) (x : Nat → K) (i : Nat) : K := ∑ j ∈ range q.nv, colOf q i j * x j

theorem rowE_row (q : DQp K) (hq : WF q) (x : Nat → K) (i : Nat) (hi : i < q.nb + q.ng) : rowE q x i = row q x i := by
  unfold rowE row colOf
  by_cases h : i < q.nb
  · simp only [if_pos h]
    rw [sum_eq_single (q.idxb i)]
    · simp
    · intro b _ hb; simp [hb]
    · intro hb; exact absurd (mem_range.2 (hq.idxb i h)) hb
  · simp only [if_neg h, if_pos hi]

theorem rowE_eq (q : DQp K) (x : Nat → K) (k : Nat) : rowE q x (q.nb + q.ng + k) = ∑ j ∈ range q.nv, q.A k j * x j := by
  unfold rowE colOf
  refine sum_congr rfl fun j _ => ?_
  rw [if_neg (by omega), if_neg (by omega), Nat.add_sub_cancel_left]

theorem colOf_coef (q : DQp K) (i j : Nat) (hi : i < q.nb + q.ng) : colOf q i j = coef q i j := by
  unfold colOf coef
  by_cases h : i < q.nb
  · simp only [if_pos h, eq_comm]
  · simp only [if_neg h, if_pos hi]

theorem mu_row (q : DQp K) (m : Mem K) (hb : Built q m) (l : Ldp K) (hn : l.n = q.nv) (hM : l.M = m.Mw) (u v : Nat → K)
    (i : Nat) (hi : i < mOf q) :
    Mu l u i = m.sc i * rowE q (toX m v u) i + ∑ j ∈ range q.nv, m.Mf j i * v j := by
  obtain ⟨L, h1, h2, h3⟩ := hb.chol
  have hr : rowE q (toX m v u) i = ∑ k ∈ range q.nv, m.chol.solveN (colOf q i) k * (u k - v k) := by
    unfold rowE
    calc ∑ j ∈ range q.nv, colOf q i j * toX m v u j
        = ∑ j ∈ range q.nv, ∑ k ∈ range q.nv, L j k * m.chol.solveN (colOf q i) k * toX m v u j := by
          refine sum_congr rfl fun j hj => ?_
          rw [← sum_mul, h2 (colOf q i) j (mem_range.1 hj)]
      _ = ∑ k ∈ range q.nv, m.chol.solveN (colOf q i) k * ∑ j ∈ range q.nv, L j k * toX m v u j := by
          rw [sum_comm]
          refine sum_congr rfl fun k _ => ?_
          rw [mul_sum]
          exact sum_congr rfl fun j _ => by ring
      _ = _ := by
          refine sum_congr rfl fun k hk => ?_
          rw [toX, h3 _ k (mem_range.1 hk)]
  unfold Mu
  rw [hr, mul_sum, ← sum_add_distrib, hn, hM]
  refine sum_congr rfl fun j hj => ?_
  rw [hb.Mw i hi j (mem_range.1 hj), hb.Mf i hi j (mem_range.1 hj)]
  ring

theorem stat_ldp (q : DQp K) (m : Mem K) (hb : Built q m) (l : Ldp K) (hn : l.n = q.nv) (hm : l.m = mOf q) (hM : l.M = m.Mw)
    (u : Nat → K) (ws : List (Nat × K)) (hs : LdpSol l u ws) (j : Nat) (hj : j < q.nv) :
    ∑ k ∈ range q.nv, DenseQp.fillUpper q.nv q.H j k * toX m (m.chol.solveN q.gz) u k + q.gz j
      = - ∑ i ∈ range (mOf q), mult ws i * m.sc i * colOf q i j := by
  obtain ⟨L, h1, h2, h3⟩ := hb.chol
  have ha : ∑ k ∈ range q.nv, DenseQp.fillUpper q.nv q.H j k * toX m (m.chol.solveN q.gz) u k
      = ∑ l ∈ range q.nv, L j l * (u l - m.chol.solveN q.gz l) := by
    calc _ = ∑ k ∈ range q.nv, ∑ l ∈ range q.nv, L j l * L k l * toX m (m.chol.solveN q.gz) u k := by
          refine sum_congr rfl fun k hk => ?_
          rw [← h1 j hj k (mem_range.1 hk), sum_mul]
      _ = ∑ l ∈ range q.nv, L j l * ∑ k ∈ range q.nv, L k l * toX m (m.chol.solveN q.gz) u k := by
          rw [sum_comm]
          refine sum_congr rfl fun l _ => ?_
          rw [mul_sum]
          exact sum_congr rfl fun k _ => by ring
      _ = _ := by
          refine sum_congr rfl fun k hk => ?_
          rw [toX, h3 _ k (mem_range.1 hk)]
  have hbq : ∑ l ∈ range q.nv, L j l * m.chol.solveN q.gz l = q.gz j := h2 q.gz j hj
  rw [ha]
  simp only [mul_sub, sum_sub_distrib]
  rw [hbq, sub_add_cancel]
  have hu : ∀ k < q.nv, u k = - ∑ i ∈ range (mOf q), m.Mw k i * mult ws i := by
    intro k hk
    rw [hs.prim k (by omega), sum_ws (mOf q) (fun i => l.M k i) ws (fun p hp => hm ▸ hs.lt p hp), hM]
  calc ∑ k ∈ range q.nv, L j k * u k
      = ∑ k ∈ range q.nv, - ∑ i ∈ range (mOf q), L j k * (m.sc i * m.chol.solveN (colOf q i) k) * mult ws i := by
        refine sum_congr rfl fun k hk => ?_
        rw [hu k (mem_range.1 hk), mul_neg, mul_sum]
        congr 1
        exact sum_congr rfl fun i hi => by rw [hb.Mw i (mem_range.1 hi) k (mem_range.1 hk)]; ring
    _ = - ∑ i ∈ range (mOf q), mult ws i * m.sc i * ∑ k ∈ range q.nv, L j k * m.chol.solveN (colOf q i) k := by
        rw [sum_neg_distrib, sum_comm]
        congr 1
        refine sum_congr rfl fun i _ => ?_
        rw [mul_sum]
        exact sum_congr rfl fun k _ => by ring
    _ = _ := by
        congr 1
        refine sum_congr rfl fun i _ => ?_
        rw [h2 _ j hj]

set_option maxHeartbeats 1000000 in
/-- core: the memory belongs to the matrices of the QP -/
theorem kkt_core (e : Ext K) (he : 0 < e.eps) (q : DQp K) (hq : WF q) (hpen : Pen e q) (m : Mem K) (hb : Built q m)
    (old : Soft K) (l : Ldp K) (v : Nat → K) (s : Soft K) (hv : v = m.chol.solveN q.gz) (hs2 : s = soft2 e q old m.sc)
    (hn : l.n = q.nv) (hm : l.m = mOf q) (hM : l.M = m.Mw) (hk : l.kind = m.kind)
    (hlo : ∀ i, l.dlo i = s.lo i * m.sc i + ∑ j ∈ range q.nv, m.Mf j i * v j)
    (hup : ∀ i, l.dup i = s.up i * m.sc i + ∑ j ∈ range q.nv, m.Mf j i * v j)
    (hdls : l.dls = s.dls) (hdus : l.dus = s.dus) (hrl : l.rhol = s.rhol) (hru : l.rhou = s.rhou)
    (u : Nat → K) (ws : List (Nat × K)) (hsol : LdpSol l u ws) (hin : Inside e q (toX m v u)) (o : Out K) :
    let r := fill e m q s (toX m v u) ws o
    KktE (solved e q) r.v r.lam r.pi := by
  intro r
  obtain ⟨x, hx⟩ : ∃ x, x = toX m v u := ⟨_, rfl⟩
  obtain ⟨N, hN⟩ : ∃ N, N = q.nb + q.ng := ⟨_, rfl⟩
  have hZ : ∀ t, 0 < zHess e q t := fun t => lt_of_lt_of_le he (le_max_left _ _)
  have hNm : ∀ i, i < N → i < mOf q := by intro i hi; unfold mOf; omega
  -- multipliers before the slack loop
  obtain ⟨l0, hl0⟩ : ∃ l0 : Nat → K, l0 = fun j => if j < 2 * q.nb + 2 * q.ng + 2 * q.ns then 0 else o.lam j := ⟨_, rfl⟩
  obtain ⟨lp, hlp⟩ : ∃ lp, lp = ws.foldl (lamStep m q) (l0, o.pi) := ⟨_, rfl⟩
  obtain ⟨v0, hv0⟩ : ∃ v0 : Nat → K, v0 = fun j => if j < q.nv then x j else o.v j := ⟨_, rfl⟩
  have hfl := lam_fold m q ws hsol.nodup (l0, o.pi)
  rw [← hlp, ← hN] at hfl
  obtain ⟨f1, f2, f3⟩ := hfl
  have hlamU : ∀ i < N, lp.1 (N + i) = max 0 (mult ws i * m.sc i) := by
    intro i hi
    have hz : l0 (N + i) = 0 := by rw [hl0]; simp only; rw [if_pos (by omega)]
    rw [(f1 i hi).1]
    by_cases hmem : i ∈ ws.map Prod.fst
    · by_cases h0 : 0 ≤ mult ws i * m.sc i
      · rw [if_pos ⟨hmem, h0⟩, max_eq_right h0]
      · rw [if_neg (fun h => h0 h.2), max_eq_left (not_le.1 h0).le]; exact hz
    · rw [if_neg (fun h => hmem h.1), mult_not_mem ws i hmem, zero_mul, max_self]; exact hz
  have hlamL : ∀ i < N, lp.1 i = max 0 (-mult ws i * m.sc i) := by
    intro i hi
    have hz : l0 i = 0 := by rw [hl0]; simp only; rw [if_pos (by omega)]
    rw [(f1 i hi).2]
    by_cases hmem : i ∈ ws.map Prod.fst
    · by_cases h0 : mult ws i * m.sc i < 0
      · rw [if_pos ⟨hmem, h0⟩, max_eq_right (by linarith)]; ring
      · rw [if_neg (fun h => h0 h.2), max_eq_left (by linarith)]; exact hz
    · rw [if_neg (fun h => hmem h.1), mult_not_mem ws i hmem, neg_zero, zero_mul, max_self]; exact hz
  -- slack loop
  have hsf := slack_fold e m q hq s v0 lp.1 q.ns le_rfl
  have hr : r = ⟨((List.range q.ns).foldl (slackStep e m q) (s, v0, lp.1)).2.1,
      ((List.range q.ns).foldl (slackStep e m q) (s, v0, lp.1)).2.2, lp.2⟩ := by
    rw [hlp, hv0, hl0, hx]; rfl
  have hrv : r.v = ((List.range q.ns).foldl (slackStep e m q) (s, v0, lp.1)).2.1 := by rw [hr]
  have hrl' : r.lam = ((List.range q.ns).foldl (slackStep e m q) (s, v0, lp.1)).2.2 := by rw [hr]
  have hrp : r.pi = lp.2 := by rw [hr]
  obtain ⟨g1, g2, g3, g4, g5, g6⟩ := hsf
  rw [← hrv] at g1 g6
  rw [← hrl'] at g2 g6
  have hvx : ∀ j < q.nv, r.v j = x j := by
    intro j hj; rw [g1 j hj, hv0]; simp only; rw [if_pos hj]
  have hrow0 : ∀ i < N, row q v0 i = row q x i := by
    intro i hi
    exact row_congr q hq _ _ (fun j hj => by rw [hv0]; simp only; rw [if_pos hj]) i (hN ▸ hi)
  have hrowr : ∀ i < N, row (solved e q) r.v i = row q x i := by
    intro i hi
    exact row_congr q hq _ _ hvx i (hN ▸ hi)
  -- the transformed constraint
  have hmu : ∀ i < mOf q, Mu l u i = m.sc i * rowE q x i + ∑ j ∈ range q.nv, m.Mf j i * v j := by
    intro i hi; rw [hx]; exact mu_row q m hb l hn hM u v i hi
  have hlam2 : ∀ i < N, r.lam (N + i) = max 0 (mult ws i * m.sc i) ∧ r.lam i = max 0 (-mult ws i * m.sc i) := by
    intro i hi
    rw [g2 (N + i) (by omega), g2 i (by omega)]
    exact ⟨hlamU i hi, hlamL i hi⟩
  -- bounds
  have hbl : ∀ i < N, blowerOf e q i = if q.mask i = 0 then -e.big else q.d i := by
    intro i hi
    unfold blowerOf
    by_cases h : i < q.nb
    · rw [if_pos h]
    · rw [if_neg h, if_pos (by omega), Nat.add_sub_cancel' (by omega)]
  have hbu : ∀ i < N, bupperOf e q i = if q.mask (N + i) = 0 then e.big else -q.d (N + i) := by
    intro i hi
    unfold bupperOf
    by_cases h : i < q.nb
    · rw [if_pos h, hN, show i + q.ng + q.nb = q.nb + q.ng + i by omega]
    · rw [if_neg h, if_pos (by omega), hN, show 2 * q.nb + q.ng + (i - q.nb) = q.nb + q.ng + i by omega]
  have hin' : ∀ i < N, _ := fun i hi => hin i (hN ▸ hi)
  rw [← hx] at hin'
  have hs2up : ∀ i, s.up i = (softOf e q old).up i := by intro i; rw [hs2]; exact (soft2_lo e hq old m.sc i).2
  have hs2lo : ∀ i, s.lo i = (softOf e q old).lo i := by intro i; rw [hs2]; exact (soft2_lo e hq old m.sc i).1
  -- soft constraints, both sides
  have hsoft : ∀ i < N, DenseQp.Soft q i →
      (let k := max 0 (mult ws i * m.sc i)
       let sv := r.v (q.nv + q.ns + slackOf q i)
       let t := slb q (q.ns + slackOf q i)
       row q x i - sv ≤ bupperOf e q i ∧ 0 ≤ r.lam (2 * N + q.ns + slackOf q i)
       ∧ k * (bupperOf e q i - row q x i + sv) = 0 ∧ r.lam (2 * N + q.ns + slackOf q i) * (sv - t) = 0
       ∧ (row q x i < bupperOf e q i + t → k = 0) ∧ t ≤ sv
       ∧ zHess e q (q.ns + slackOf q i) * sv + q.gz (q.nv + q.ns + slackOf q i)
          = k + r.lam (2 * N + q.ns + slackOf q i))
      ∧ (let k := max 0 (-mult ws i * m.sc i)
       let sv := r.v (q.nv + slackOf q i)
       let t := slb q (slackOf q i)
       blowerOf e q i ≤ row q x i + sv ∧ 0 ≤ r.lam (2 * N + slackOf q i)
       ∧ k * (row q x i + sv - blowerOf e q i) = 0 ∧ r.lam (2 * N + slackOf q i) * (sv - t) = 0
       ∧ (blowerOf e q i - t < row q x i → k = 0) ∧ t ≤ sv
       ∧ zHess e q (slackOf q i) * sv + q.gz (q.nv + slackOf q i) = k + r.lam (2 * N + slackOf q i)) := by
    intro i hi hs
    have hi' : i < q.nb + q.ng := hN ▸ hi
    have hsl := hq.slack_lt i hi' hs.2
    have hidx := idxsOf_eq hq i hi' hs.2
    obtain ⟨d1, d2, d3, d4⟩ := soft2_d e hq old m.sc i hi' hs
    rw [← hs2] at d1 d2 d3 d4
    obtain ⟨b1, b2, -⟩ := softOf_view e hq old i hi'
    rw [if_pos hs] at b1 b2
    have hsc := hb.sc i (hNm i hi)
    have hkind : l.kind i = .soft := by rw [hk, hb.kind i (hNm i hi)]; exact (kindOf_eq hq i).1 hi' hs
    obtain ⟨⟨p1, p2⟩, p3, p4⟩ := hsol.soft i (by rw [hm]; exact hNm i hi) hkind
    obtain ⟨w1, w2, w3, w4⟩ := g6 (slackOf q i) hsl
    rw [hidx, hrow0 i hi] at w1 w2
    rw [hidx, hrow0 i hi] at w3 w4
    have hro : rowE q x i = row q x i := rowE_row q hq x i hi'
    have hmui := hmu i (hNm i hi)
    rw [hro] at hmui
    have hpenU := hpen (q.ns + slackOf q i) (by omega)
    have hpenL := hpen (slackOf q i) (by omega)
    have hslbU : slb q (q.ns + slackOf q i) = q.d (2 * q.nb + 2 * q.ng + q.ns + slackOf q i) := by
      unfold slb; congr 1; omega
    have hslbL : slb q (slackOf q i) = q.d (2 * q.nb + 2 * q.ng + slackOf q i) := rfl
    have hgU : q.gz (q.nv + (q.ns + slackOf q i)) = q.gz (q.nv + q.ns + slackOf q i) := by congr 1; omega
    rw [hgU] at hpenU
    have eup : s.up i = bupperOf e q i - q.gz (q.nv + q.ns + slackOf q i) / zHess e q (q.ns + slackOf q i)
        + max 0 (q.gz (q.nv + q.ns + slackOf q i) + zHess e q (q.ns + slackOf q i) * slb q (q.ns + slackOf q i))
          / zHess e q (q.ns + slackOf q i) := by
      rw [hs2up, hslbU]; exact b2
    have elo : s.lo i = blowerOf e q i + q.gz (q.nv + slackOf q i) / zHess e q (slackOf q i)
        - max 0 (q.gz (q.nv + slackOf q i) + zHess e q (slackOf q i) * slb q (slackOf q i))
          / zHess e q (slackOf q i) := by
      rw [hs2lo, hslbL]; exact b1
    have edu : s.dus i = max 0 (q.gz (q.nv + q.ns + slackOf q i) + zHess e q (q.ns + slackOf q i) * slb q (q.ns + slackOf q i))
        / m.sc i := by rw [d2, hslbU]; rfl
    have edl : s.dls i = max 0 (q.gz (q.nv + slackOf q i) + zHess e q (slackOf q i) * slb q (slackOf q i)) / m.sc i := by
      rw [d1, hslbL]; rfl
    have eru : s.rhou i = 1 / zHess e q (q.ns + slackOf q i) * (m.sc i * m.sc i) := by rw [d4]; rfl
    have erl : s.rhol i = 1 / zHess e q (slackOf q i) * (m.sc i * m.sc i) := by rw [d3]; rfl
    have eU : Mu l u i - l.dup i = m.sc i * (row q x i - s.up i) := by rw [hmui, hup i]; ring
    have eL : l.dlo i - Mu l u i = m.sc i * (-row q x i - -s.lo i) := by rw [hmui, hlo i]; ring
    constructor
    · rw [eU, hru, hdus, eru, edu, eup] at p1 p2
      have key := soft_side (m.sc i) (zHess e q (q.ns + slackOf q i)) (q.gz (q.nv + q.ns + slackOf q i))
        (slb q (q.ns + slackOf q i)) (bupperOf e q i) (row q x i) (mult ws i) hsc (hZ _) hpenU p1 p2
      have hsv : r.v (q.nv + q.ns + slackOf q i) = max (slb q (q.ns + slackOf q i)) (row q x i - bupperOf e q i) := by
        rw [w2, eup, edu, hslbU]
        congr 2
        have := (hZ (q.ns + slackOf q i)).ne'
        have := hsc.ne'
        field_simp
        ring
      have hlm : r.lam (2 * N + q.ns + slackOf q i) = zHess e q (q.ns + slackOf q i)
          * max (slb q (q.ns + slackOf q i)) (row q x i - bupperOf e q i) + q.gz (q.nv + q.ns + slackOf q i)
          - max 0 (mult ws i * m.sc i) := by
        rw [← hlamU i hi, ← hsv, w2, hN]
        exact w4
      simp only
      rw [hsv, hlm]
      obtain ⟨k1, k2, k3, k4, k5⟩ := key
      exact ⟨k1, k2, k3, k4, k5, le_max_left _ _, by ring⟩
    · have eLo : -s.lo i = -blowerOf e q i - q.gz (q.nv + slackOf q i) / zHess e q (slackOf q i)
          + max 0 (q.gz (q.nv + slackOf q i) + zHess e q (slackOf q i) * slb q (slackOf q i))
            / zHess e q (slackOf q i) := by rw [elo]; ring
      rw [eL, hrl, hdls, erl, edl, eLo] at p3 p4
      have key := soft_side (m.sc i) (zHess e q (slackOf q i)) (q.gz (q.nv + slackOf q i))
        (slb q (slackOf q i)) (-blowerOf e q i) (-row q x i) (-mult ws i) hsc (hZ _) hpenL p3
        (fun h => p4 (by linarith))
      have hsv : r.v (q.nv + slackOf q i) = max (slb q (slackOf q i)) (-row q x i - -blowerOf e q i) := by
        rw [w1, elo, edl, hslbL]
        congr 1
        have := (hZ (slackOf q i)).ne'
        have := hsc.ne'
        field_simp
        ring
      have hlm : r.lam (2 * N + slackOf q i) = zHess e q (slackOf q i)
          * max (slb q (slackOf q i)) (-row q x i - -blowerOf e q i) + q.gz (q.nv + slackOf q i)
          - max 0 (-mult ws i * m.sc i) := by
        rw [← hlamL i hi, ← hsv, w1, hN]
        exact w3
      simp only
      rw [hsv, hlm]
      obtain ⟨k1, k2, k3, k4, k5⟩ := key
      refine ⟨by linarith, k2, ?_, k4, fun h => k5 (by linarith), le_max_left _ _, by ring⟩
      refine Eq.trans ?_ k3
      congr 1
      ring
  have hhard : ∀ i < N, ¬ DenseQp.Soft q i →
      (row q x i ≤ bupperOf e q i ∧ max 0 (mult ws i * m.sc i) * (bupperOf e q i - row q x i) = 0
        ∧ (row q x i < bupperOf e q i → max 0 (mult ws i * m.sc i) = 0))
      ∧ (blowerOf e q i ≤ row q x i ∧ max 0 (-mult ws i * m.sc i) * (row q x i - blowerOf e q i) = 0
        ∧ (blowerOf e q i < row q x i → max 0 (-mult ws i * m.sc i) = 0)) := by
    intro i hi hs
    have hi' : i < q.nb + q.ng := hN ▸ hi
    obtain ⟨b1, b2, -⟩ := softOf_view e hq old i hi'
    rw [if_neg hs] at b1 b2
    have hsc := hb.sc i (hNm i hi)
    have hkind : l.kind i = .hard := by rw [hk, hb.kind i (hNm i hi)]; exact (kindOf_eq hq i).2.1 hi' hs
    obtain ⟨⟨p1, p2⟩, p3, p4⟩ := hsol.hard i (by rw [hm]; exact hNm i hi) hkind
    have hro : rowE q x i = row q x i := rowE_row q hq x i hi'
    have hmui := hmu i (hNm i hi)
    rw [hro] at hmui
    have eup : s.up i = bupperOf e q i := (hs2up i).trans b2
    have elo : s.lo i = blowerOf e q i := (hs2lo i).trans b1
    rw [hmui, hup i, eup] at p1 p2
    rw [hmui, hlo i, elo] at p3 p4
    constructor
    · exact hard_side (m.sc i) (bupperOf e q i) (row q x i) (mult ws i) hsc (by linarith)
        (fun h => by have := p2 h; linarith)
    · obtain ⟨k1, k2, k3⟩ := hard_side (m.sc i) (-blowerOf e q i) (-row q x i) (-mult ws i) hsc (by linarith)
        (fun h => by have := p4 (by linarith); linarith)
      refine ⟨by linarith, Eq.trans ?_ k2, fun h => k3 (by linarith)⟩
      congr 1
      ring
  -- multipliers of masked constraints
  have hmaskU : ∀ i < N, q.mask (N + i) = 0 → max 0 (mult ws i * m.sc i) = 0 := by
    intro i hi h0
    have hbu' := hbu i hi
    rw [if_pos h0] at hbu'
    obtain ⟨-, i2, i3⟩ := hin' i hi
    by_cases hs : DenseQp.Soft q i
    · exact (hsoft i hi hs).1.2.2.2.2.1 (by rw [hbu']; exact (i3 hs).2)
    · exact (hhard i hi hs).1.2.2 (by rw [hbu']; exact i2)
  have hmaskL : ∀ i < N, q.mask i = 0 → max 0 (-mult ws i * m.sc i) = 0 := by
    intro i hi h0
    have hbl' := hbl i hi
    rw [if_pos h0] at hbl'
    obtain ⟨i1, -, i3⟩ := hin' i hi
    by_cases hs : DenseQp.Soft q i
    · exact (hsoft i hi hs).2.2.2.2.2.1 (by rw [hbl']; exact (i3 hs).1)
    · exact (hhard i hi hs).2.2.2 (by rw [hbl']; exact i1)
  have hslackOf : ∀ t < 2 * q.ns, (∃ i < N, DenseQp.Soft q i ∧ t = slackOf q i)
      ∨ ∃ i < N, DenseQp.Soft q i ∧ t = q.ns + slackOf q i := by
    intro t ht
    by_cases h : t < q.ns
    · exact Or.inl ⟨_, hN ▸ (idxs_inv hq t h).1, ⟨by omega, (idxs_inv hq t h).2.1⟩, (idxs_inv hq t h).2.2.symm⟩
    · have h' : t - q.ns < q.ns := by omega
      refine Or.inr ⟨_, hN ▸ (idxs_inv hq _ h').1, ⟨by omega, (idxs_inv hq _ h').2.1⟩, ?_⟩
      rw [(idxs_inv hq _ h').2.2]; omega
  have hlamS : ∀ i < N, DenseQp.Soft q i → r.lam (2 * N + (q.ns + slackOf q i)) = r.lam (2 * N + q.ns + slackOf q i) := by
    intro i _ _; congr 1; omega
  have hvS : ∀ i < N, DenseQp.Soft q i → r.v (q.nv + (q.ns + slackOf q i)) = r.v (q.nv + q.ns + slackOf q i) := by
    intro i _ _; congr 1; omega
  have hbnd : ∀ t < 2 * q.ns, slb q t ≤ r.v (q.nv + t) := by
    intro t ht
    rcases hslackOf t ht with ⟨i, hi, hs, rfl⟩ | ⟨i, hi, hs, rfl⟩
    · exact (hsoft i hi hs).2.2.2.2.2.2.1
    · rw [hvS i hi hs]; exact (hsoft i hi hs).1.2.2.2.2.2.1
  refine ⟨⟨?_, ?_, ?_, fun t ht _ => hbnd t ht⟩, ?_, ?_, ?_, ?_, ?_, ?_, ?_, ?_, hbnd⟩
  · -- equalities
    intro k hk'
    change ∑ j ∈ range q.nv, q.A k j * r.v j = q.b k
    change k < q.ne at hk'
    rw [show ∑ j ∈ range q.nv, q.A k j * r.v j = ∑ j ∈ range q.nv, q.A k j * x j from
      sum_congr rfl fun j hj => by rw [hvx j (mem_range.1 hj)], ← rowE_eq]
    have hi : q.nb + q.ng + k < mOf q := by unfold mOf; omega
    have hkind : l.kind (q.nb + q.ng + k) = .eq := by
      rw [hk, hb.kind _ hi]; exact (kindOf_eq hq _).2.2 (by omega)
    have := (hsol.eq _ (by rw [hm]; exact hi) hkind).1
    rw [hmu _ hi, hup, hs2up, softOf_eq e hq old _ (by omega)] at this
    have hbe : bupperOf e q (q.nb + q.ng + k) = q.b k := by
      unfold bupperOf; rw [if_neg (by omega), if_neg (by omega), Nat.add_sub_cancel_left]
    rw [hbe] at this
    exact mul_left_cancel₀ (hb.sc _ hi).ne' (by linarith)
  · -- lower bounds
    intro i hi hmk
    have hi' : i < N := hN ▸ hi
    change q.mask i ≠ 0 at hmk
    change q.d i ≤ row (solved e q) r.v i + sl (solved e q) r.v i
    rw [hrowr i hi']
    have hbl' := hbl i hi'
    rw [if_neg hmk] at hbl'
    by_cases hs : DenseQp.Soft q i
    · have : sl (solved e q) r.v i = r.v (q.nv + slackOf q i) := if_pos hs
      rw [this, ← hbl']
      exact (hsoft i hi' hs).2.1
    · have : sl (solved e q) r.v i = 0 := if_neg hs
      rw [this, ← hbl', add_zero]
      exact (hhard i hi' hs).2.1
  · intro i hi hmk
    have hi' : i < N := hN ▸ hi
    change q.mask (q.nb + q.ng + i) ≠ 0 at hmk
    rw [← hN] at hmk
    change row (solved e q) r.v i - su (solved e q) r.v i ≤ -q.d (q.nb + q.ng + i)
    rw [hrowr i hi', ← hN]
    have hbu' := hbu i hi'
    rw [if_neg hmk] at hbu'
    by_cases hs : DenseQp.Soft q i
    · have : su (solved e q) r.v i = r.v (q.nv + q.ns + slackOf q i) := if_pos hs
      rw [this, ← hbu']
      exact (hsoft i hi' hs).1.1
    · have : su (solved e q) r.v i = 0 := if_neg hs
      rw [this, ← hbu', sub_zero]
      exact (hhard i hi' hs).1.1
  · -- signs
    intro i hi
    change i < 2 * (q.nb + q.ng + q.ns) at hi
    by_cases h1 : i < N
    · rw [(hlam2 i h1).2]; exact le_max_left _ _
    · by_cases h2 : i < 2 * N
      · have := (hlam2 (i - N) (by omega)).1
        rw [show N + (i - N) = i by omega] at this
        rw [this]; exact le_max_left _ _
      · rcases hslackOf (i - 2 * N) (by omega) with ⟨k, hk', hs, he'⟩ | ⟨k, hk', hs, he'⟩
        · rw [show i = 2 * N + slackOf q k by omega]
          exact (hsoft k hk' hs).2.2.1
        · rw [show i = 2 * N + q.ns + slackOf q k by omega]
          exact (hsoft k hk' hs).1.2.1
  · -- stationarity
    intro j hj
    change j < q.nv at hj
    change ∑ k ∈ range q.nv, DenseQp.fillUpper q.nv q.H j k * r.v k + q.gz j + ∑ k ∈ range q.ne, q.A k j * r.pi k
      = ∑ i ∈ range (q.nb + q.ng), (r.lam i - r.lam (q.nb + q.ng + i)) * coef q i j
    have hst := stat_ldp q m hb l hn hm hM u ws hsol j hj
    rw [← hv, ← hx] at hst
    rw [show ∑ k ∈ range q.nv, DenseQp.fillUpper q.nv q.H j k * r.v k
        = ∑ k ∈ range q.nv, DenseQp.fillUpper q.nv q.H j k * x k from
      sum_congr rfl fun k hk' => by rw [hvx k (mem_range.1 hk')], hst]
    have hsplit : ∑ i ∈ range (mOf q), mult ws i * m.sc i * colOf q i j
        = ∑ i ∈ range (q.nb + q.ng), mult ws i * m.sc i * coef q i j
          + ∑ k ∈ range q.ne, mult ws (q.nb + q.ng + k) * m.sc (q.nb + q.ng + k) * q.A k j := by
      unfold mOf
      rw [sum_range_add]
      congr 1
      · exact sum_congr rfl fun i hi => by rw [colOf_coef q i j (mem_range.1 hi)]
      · refine sum_congr rfl fun k _ => ?_
        unfold colOf
        rw [if_neg (by omega), if_neg (by omega), Nat.add_sub_cancel_left]
    have hpi : ∑ k ∈ range q.ne, q.A k j * r.pi k
        = ∑ k ∈ range q.ne, mult ws (q.nb + q.ng + k) * m.sc (q.nb + q.ng + k) * q.A k j := by
      refine sum_congr rfl fun k hk' => ?_
      have hi : q.nb + q.ng + k < mOf q := by unfold mOf; have := mem_range.1 hk'; omega
      have hkind : l.kind (q.nb + q.ng + k) = .eq := by
        rw [hk, hb.kind _ hi]; exact (kindOf_eq hq _).2.2 (by omega)
      have hmem := (hsol.eq _ (by rw [hm]; exact hi) hkind).2
      rw [hrp, f3 k, hN, if_pos hmem]; ring
    have hineq : ∑ i ∈ range (q.nb + q.ng), (r.lam i - r.lam (q.nb + q.ng + i)) * coef q i j
        = - ∑ i ∈ range (q.nb + q.ng), mult ws i * m.sc i * coef q i j := by
      rw [← sum_neg_distrib]
      refine sum_congr rfl fun i hi => ?_
      have hi' : i < N := by rw [hN]; exact mem_range.1 hi
      rw [← hN, (hlam2 i hi').1, (hlam2 i hi').2]
      have : max 0 (-mult ws i * m.sc i) - max 0 (mult ws i * m.sc i) = -(mult ws i * m.sc i) := by
        rcases le_total 0 (mult ws i * m.sc i) with h | h
        · rw [max_eq_right h, max_eq_left (by linarith)]; ring
        · rw [max_eq_left h, max_eq_right (by linarith)]; ring
      rw [this]; ring
    rw [hsplit, hpi, hineq]
    ring
  · intro i hi hs
    have hi' : i < N := hN ▸ hi
    change zHess e q (slackOf q i) * r.v (q.nv + slackOf q i) + q.gz (q.nv + slackOf q i)
      = r.lam i + r.lam (2 * (q.nb + q.ng) + slackOf q i)
    rw [(hlam2 i hi').2, ← hN]
    exact (hsoft i hi' hs).2.2.2.2.2.2.2
  · intro i hi hs
    have hi' : i < N := hN ▸ hi
    change zHess e q (q.ns + slackOf q i) * r.v (q.nv + q.ns + slackOf q i) + q.gz (q.nv + q.ns + slackOf q i)
      = r.lam (q.nb + q.ng + i) + r.lam (2 * (q.nb + q.ng) + q.ns + slackOf q i)
    rw [← hN, (hlam2 i hi').1]
    exact (hsoft i hi' hs).1.2.2.2.2.2.2
  · -- complementarity, lower
    intro i hi
    have hi' : i < N := hN ▸ hi
    change r.lam i * (row (solved e q) r.v i + sl (solved e q) r.v i - q.d i) = 0
    rw [hrowr i hi', (hlam2 i hi').2]
    by_cases h0 : q.mask i = 0
    · rw [hmaskL i hi' h0, zero_mul]
    · have hbl' := hbl i hi'
      rw [if_neg h0] at hbl'
      rw [← hbl']
      by_cases hs : DenseQp.Soft q i
      · have : sl (solved e q) r.v i = r.v (q.nv + slackOf q i) := if_pos hs
        rw [this]
        exact (hsoft i hi' hs).2.2.2.1
      · have : sl (solved e q) r.v i = 0 := if_neg hs
        rw [this, add_zero]
        exact (hhard i hi' hs).2.2.1
  · intro i hi
    have hi' : i < N := hN ▸ hi
    change r.lam (q.nb + q.ng + i) * (-q.d (q.nb + q.ng + i) - row (solved e q) r.v i + su (solved e q) r.v i) = 0
    rw [hrowr i hi', ← hN, (hlam2 i hi').1]
    by_cases h0 : q.mask (N + i) = 0
    · rw [hmaskU i hi' h0, zero_mul]
    · have hbu' := hbu i hi'
      rw [if_neg h0] at hbu'
      rw [← hbu']
      by_cases hs : DenseQp.Soft q i
      · have : su (solved e q) r.v i = r.v (q.nv + q.ns + slackOf q i) := if_pos hs
        rw [this]
        exact (hsoft i hi' hs).1.2.2.1
      · have : su (solved e q) r.v i = 0 := if_neg hs
        rw [this, add_zero]
        exact (hhard i hi' hs).1.2.1
  · intro t ht
    change r.lam (2 * (q.nb + q.ng) + t) * (r.v (q.nv + t) - slb q t) = 0
    rw [← hN]
    rcases hslackOf t ht with ⟨i, hi, hs, rfl⟩ | ⟨i, hi, hs, rfl⟩
    · exact (hsoft i hi hs).2.2.2.2.1
    · rw [hvS i hi hs, hlamS i hi hs]; exact (hsoft i hi hs).1.2.2.2.1
  · intro i hi h0
    change i < 2 * (q.nb + q.ng) at hi
    change q.mask i = 0 at h0
    by_cases h1 : i < N
    · rw [(hlam2 i h1).2]; exact hmaskL i h1 h0
    · have := (hlam2 (i - N) (by omega)).1
      rw [show N + (i - N) = i by omega] at this
      rw [this]
      exact hmaskU (i - N) (by omega) (by rw [show N + (i - N) = i by omega]; exact h0)

theorem fill_v (e : Ext K) (m : Mem K) (q : DQp K) (hq : WF q) (b : Soft K) (x : Nat → K) (ws : List (Nat × K)) (o : Out K)
    (j : Nat) (hj : j < q.nv) : (fill e m q b x ws o).v j = x j := by
  have h := (slack_fold e m q hq b (fun j => if j < q.nv then x j else o.v j)
    (ws.foldl (lamStep m q) (fun j => if j < 2 * q.nb + 2 * q.ng + 2 * q.ns then 0 else o.lam j, o.pi)).1 q.ns le_rfl).1 j hj
  exact h.trans (if_pos hj)

end Acados.Daqp
