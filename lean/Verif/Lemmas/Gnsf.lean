import Verif.Spec.Gnsf
import Mathlib.LinearAlgebra.Matrix.NonsingularInverse
import Mathlib.Tactic.Ring
import Mathlib.Tactic.LinearCombination
/-!
# GNSF integrator: closed forms of the assembly loops, exact solves
-/
namespace Acados.Gnsf
open Matrix
set_option linter.unusedSectionVars false
variable {K : Type*} [Field K] [LinearOrder K]

section loops
variable {s : Nat} {μ ν : Type*}

theorem setRow_fold (B : Matrix μ ν K) (l : List (Fin s)) (M : Matrix (Fin s × μ) ν K) (p q) :
    (l.foldl (fun M ii => setRow ii B M) M) p q = if p.1 ∈ l then B p.2 q else M p q := by
  induction l generalizing M with
  | nil => simp
  | cons i l ih =>
    rw [List.foldl_cons, ih]
    by_cases h : p.1 ∈ l
    · simp [h]
    · simp [h, setRow]

theorem stackM_apply (B : Matrix μ ν K) (p q) : stackM s B p q = B p.2 q := by
  unfold stackM stages
  rw [setRow_fold]; simp

theorem setBlk_fold (B : Matrix μ ν K) (l : List (Fin s)) (M : Matrix (Fin s × μ) (Fin s × ν) K) (p q) :
    (l.foldl (fun M ii => setBlk ii ii B M) M) p q
      = if p.1 ∈ l ∧ p.1 = q.1 then B p.2 q.2 else M p q := by
  induction l generalizing M with
  | nil => simp
  | cons i l ih =>
    rw [List.foldl_cons, ih]
    by_cases h : p.1 ∈ l ∧ p.1 = q.1
    · rw [if_pos h, if_pos ⟨List.mem_cons_of_mem _ h.1, h.2⟩]
    · rw [if_neg h]
      by_cases h' : p.1 = i ∧ q.1 = i
      · rw [if_pos ⟨by rw [h'.1]; exact List.mem_cons_self, h'.1.trans h'.2.symm⟩]
        simp [setBlk, h']
      · rw [if_neg]
        · simp only [setBlk, if_neg h']
        · rintro ⟨ha, hb⟩
          rcases List.mem_cons.1 ha with hc | hc
          · exact h' ⟨hc, hb ▸ hc⟩
          · exact h ⟨hc, hb⟩

theorem diagM_apply (B : Matrix μ ν K) (p q) :
    diagM s B p q = if p.1 = q.1 then B p.2 q.2 else 0 := by
  unfold diagM stages
  rw [setBlk_fold]; simp

theorem addBlk_inner (f : Fin s → K) (ii : Fin s) (B : Matrix μ ν K) (l : List (Fin s)) (hl : l.Nodup)
    (M : Matrix (Fin s × μ) (Fin s × ν) K) (p q) :
    (l.foldl (fun M jj => addBlk (f jj) jj ii B M) M) p q
      = M p q + if p.1 ∈ l ∧ q.1 = ii then f p.1 * B p.2 q.2 else 0 := by
  induction l generalizing M with
  | nil => simp
  | cons j l ih =>
    rw [List.foldl_cons, ih (List.nodup_cons.1 hl).2]
    have hj := (List.nodup_cons.1 hl).1
    by_cases h : p.1 = j
    · by_cases hq : q.1 = ii
      · simp [addBlk, h, hq, hj]
      · simp [addBlk, hq]
    · by_cases hq : q.1 = ii
      · simp [addBlk, h, hq]
      · simp [addBlk, hq]

theorem addBlk_outer (f : Fin s → Fin s → K) (B : Fin s → Matrix μ ν K) (l : List (Fin s)) (hl : l.Nodup)
    (M : Matrix (Fin s × μ) (Fin s × ν) K) (p q) :
    (l.foldl (fun M ii => stages s (fun M jj => addBlk (f ii jj) jj ii (B ii) M) M) M) p q
      = M p q + if q.1 ∈ l then f q.1 p.1 * B q.1 p.2 q.2 else 0 := by
  induction l generalizing M with
  | nil => simp
  | cons i l ih =>
    rw [List.foldl_cons, ih (List.nodup_cons.1 hl).2]
    have hi := (List.nodup_cons.1 hl).1
    unfold stages
    rw [addBlk_inner _ _ _ _ (List.nodup_finRange s)]
    by_cases h : q.1 = i
    · simp [h, hi]
    · simp [h]

theorem kron_apply (f : Nat → K) (B : Matrix μ ν K) (M : Matrix (Fin s × μ) (Fin s × ν) K) (p q) :
    kron s f B M p q = M p q + f (q.1.val * s + p.1.val) * B p.2 q.2 := by
  have h := addBlk_outer (fun ii jj => f (ii.val * s + jj.val)) (fun _ => B) (List.finRange s)
    (List.nodup_finRange s) M p q
  simp only [List.mem_finRange, if_true] at h
  exact h

/-- the loop of `M2`: in each pass the diagonal block is set before all blocks of the column are added to -/
theorem m2_fold (f : Fin s → Fin s → K) (B E : Matrix μ ν K) (l : List (Fin s)) (hl : l.Nodup)
    (M : Matrix (Fin s × μ) (Fin s × ν) K) (p q) :
    (l.foldl (fun M ii => stages s (fun M jj => addBlk (f ii jj) jj ii B M) (setBlk ii ii E M)) M) p q
      = if q.1 ∈ l then (if p.1 = q.1 then E p.2 q.2 else M p q) + f q.1 p.1 * B p.2 q.2
        else M p q := by
  induction l generalizing M with
  | nil => simp
  | cons i l ih =>
    rw [List.foldl_cons, ih (List.nodup_cons.1 hl).2]
    have hi := (List.nodup_cons.1 hl).1
    have e1 : ∀ p q, stages s (fun M jj => addBlk (f i jj) jj i B M) (setBlk i i E M) p q
        = (setBlk i i E M) p q + if q.1 = i then f i p.1 * B p.2 q.2 else 0 := by
      intro p q
      unfold stages
      rw [addBlk_inner _ _ _ _ (List.nodup_finRange s)]
      simp
    rw [e1]
    by_cases h : q.1 = i
    · by_cases hp : p.1 = i <;> simp [h, hi, hp, setBlk]
    · simp [h, setBlk]

theorem setVec_fold (b : μ → K) (l : List (Fin s)) (v : Fin s × μ → K) (p) :
    (l.foldl (fun v ii => setVec ii b v) v) p = if p.1 ∈ l then b p.2 else v p := by
  induction l generalizing v with
  | nil => simp
  | cons i l ih =>
    rw [List.foldl_cons, ih]
    by_cases h : p.1 ∈ l
    · simp [h]
    · simp [h, setVec]

theorem stages_add (f : Fin s → K) (a : K) : stages s (fun acc jj => acc + f jj) a = a + ∑ j, f j := by
  unfold stages
  have h : ∀ (l : List (Fin s)) (a : K), l.foldl (fun acc jj => acc + f jj) a = a + (l.map f).sum := by
    intro l
    induction l with
    | nil => intro a; simp
    | cons i l ih => intro a; rw [List.foldl_cons, ih, List.map_cons, List.sum_cons, add_assoc]
  rw [h, ← List.ofFn_eq_map, List.sum_ofFn]

end loops

section solves
variable {ι : Type*} [Fintype ι] [DecidableEq ι] {n : Type*}

theorem IsLu.fwd {M : Matrix ι ι K} {lu : Lu ι K} (h : IsLu M lu) :
    M.submatrix lu.perm id * lu.Uinv * lu.Linv = 1 := by
  rw [← h.1, Matrix.mul_assoc, Matrix.mul_assoc, ← Matrix.mul_assoc lu.U, h.2.2, Matrix.one_mul, h.2.1]

theorem rowpe_inj (lu : Lu ι K) {X Y : Matrix ι n K} (h : rowpe lu X = rowpe lu Y) : X = Y := by
  ext i j
  have := congrFun (congrFun h (lu.perm.symm i)) j
  simpa [rowpe] using this

theorem rowpe_mul (lu : Lu ι K) (M : Matrix ι ι K) (X : Matrix ι n K) :
    rowpe lu (M * X) = M.submatrix lu.perm id * X := by
  ext i j; rfl

/-- `drowpe`, `dtrsm`, `dtrsm` solves the system -/
theorem mul_solveM {M : Matrix ι ι K} {lu : Lu ι K} (h : IsLu M lu) (X : Matrix ι n K) :
    M * solveM lu X = X := by
  apply rowpe_inj lu
  rw [rowpe_mul, solveM, trsm, ← Matrix.mul_assoc, ← Matrix.mul_assoc, h.fwd, Matrix.one_mul]

theorem mulVec_solveV {M : Matrix ι ι K} {lu : Lu ι K} (h : IsLu M lu) (x : ι → K) :
    M *ᵥ solveV lu x = x := by
  have h1 : (M.submatrix lu.perm id) *ᵥ solveV lu x = x ∘ lu.perm := by
    rw [solveV, Matrix.mulVec_mulVec, Matrix.mulVec_mulVec, h.fwd, Matrix.one_mulVec]
  ext i
  have := congrFun h1 (lu.perm.symm i)
  simpa [Matrix.mulVec, dotProduct] using this

theorem mul_trsm {M : Matrix ι ι K} {lu : Lu ι K} (h : IsLu M lu) (hp : lu.perm = 1) (X : Matrix ι n K) :
    M * trsm lu X = X := by
  have : X = rowpe lu X := by ext i j; simp [rowpe, hp]
  conv_lhs => rw [this]
  exact mul_solveM h X

/-- the transposed solve -/
theorem mulVec_solveT {M : Matrix ι ι K} {lu : Lu ι K} (h : IsLu M lu) (x : ι → K) :
    Mᵀ *ᵥ solveT lu x = x := by
  have e1 : Mᵀ *ᵥ solveT lu x = (M.submatrix lu.perm id)ᵀ *ᵥ (lu.Linvᵀ *ᵥ (lu.Uinvᵀ *ᵥ x)) := by
    ext c
    simp only [Matrix.mulVec, dotProduct, Matrix.transpose_apply, solveT, Function.comp,
      Matrix.submatrix_apply, id]
    rw [← Equiv.sum_comp lu.perm]
    simp
  rw [e1, Matrix.mulVec_mulVec, Matrix.mulVec_mulVec, ← Matrix.transpose_mul, ← Matrix.transpose_mul]
  have h2 : lu.Uinv * (lu.Linv * M.submatrix lu.perm id) = 1 := by
    have := h.fwd
    rw [Matrix.mul_assoc, mul_eq_one_comm, Matrix.mul_assoc] at this
    exact this
  rw [h2, Matrix.transpose_one, Matrix.one_mulVec]

end solves

section maps
variable {s : Nat} {μ ν : Type*} [Fintype ν]

theorem stackM_mulVec (B : Matrix μ ν K) (x : ν → K) (a) : (stackM s B *ᵥ x) a = (B *ᵥ x) a.2 := by
  simp [Matrix.mulVec, dotProduct, stackM_apply]

theorem diagM_mulVec (B : Matrix μ ν K) (k : Fin s × ν → K) (a) :
    (diagM s B *ᵥ k) a = (B *ᵥ blk k a.1) a.2 := by
  simp only [Matrix.mulVec, dotProduct, diagM_apply, Fintype.sum_prod_type]
  rw [Finset.sum_eq_single a.1]
  · simp
  · intro b _ hb; simp [Ne.symm hb]
  · simp

theorem kron_mulVec (f : Nat → K) (B D : Matrix μ ν K) (k : Fin s × ν → K) (a) :
    (kron s f B (diagM s D) *ᵥ k) a
      = (D *ᵥ blk k a.1) a.2 + ∑ i : Fin s, f (i.val * s + a.1.val) * (B *ᵥ blk k i) a.2 := by
  rw [← diagM_mulVec]
  simp only [Matrix.mulVec, dotProduct, kron_apply, add_mul, Finset.sum_add_distrib]
  congr 1
  rw [Fintype.sum_prod_type]
  refine Finset.sum_congr rfl fun i _ => ?_
  rw [Finset.mul_sum]
  exact Finset.sum_congr rfl fun c _ => by simp [mul_assoc]

theorem mulVec_stageOf {n : Nat} (o : Opts K) (dt : K) (B : Matrix μ (Fin n) K) (x : Fin n → K)
    (k : Fin s → Fin n → K) (j : Fin s) (r : μ) :
    (B *ᵥ stageOf o dt x k j) r
      = (B *ᵥ x) r + ∑ i : Fin s, Adt o dt (i.val * s + j.val) * (B *ᵥ k i) r := by
  simp only [Matrix.mulVec, dotProduct, stageOf, mul_add, Finset.sum_add_distrib, Finset.mul_sum]
  congr 1
  rw [Finset.sum_comm]
  refine Finset.sum_congr rfl fun i _ => Finset.sum_congr rfl fun c _ => ?_
  rw [Adt, show i.val * s + j.val = j.val + s * i.val by ring]; ring

end maps

section core
variable {d : Dims} {m : Mdl K} {o : Opts K} {dt : K} {f : Facts d K}

theorem cc1_apply (a : K1 d) : cc1 d m a = m.c a.2.val := by
  unfold cc1 stages; rw [setVec_fold]; simp

theorem cc2_apply (a : Z1 d) : cc2 d m a = m.c (d.nx1 + a.2.val) := by
  unfold cc2 stages; rw [setVec_fold]; simp

/-- first block row of the precomputed maps -/
theorem K_eq (x : Fin d.nx1 → K) (u : Fin d.nu → K) (v : VV d → K) (w : Stale d K) :
    K1val d (precompute d m o dt f w) x u v
      = solveM f.ee1 (DD1 d m) *ᵥ Z1val d (precompute d m o dt f w) x u v
        + (solveM f.ee1 (stackM d.s (A1 d m)) *ᵥ x + solveM f.ee1 (stackM d.s (B1 d m)) *ᵥ u
          + solveM f.ee1 (CC1 d m) *ᵥ v + solveV f.ee1 (cc1 d m)) := by
  simp only [K1val, Z1val, precompute, KKx, KKu, KKv, KK0, Matrix.add_mulVec, Matrix.mulVec_add,
    Matrix.mulVec_mulVec]
  abel

/-- second block row -/
theorem Z_eq (hQ : IsLu (QQ1 d m o dt f) f.qq1) (hp : f.qq1.perm = 1)
    (x : Fin d.nx1 → K) (u : Fin d.nu → K) (v : VV d → K) (w : Stale d K) :
    Z1val d (precompute d m o dt f w) x u v
      = solveM f.ee2 (DD2 d m o dt) *ᵥ K1val d (precompute d m o dt f w) x u v
        + (solveM f.ee2 (stackM d.s (A2 d m)) *ᵥ x + solveM f.ee2 (stackM d.s (B2 d m)) *ᵥ u
          + solveM f.ee2 (CC2 d m) *ᵥ v + solveV f.ee2 (cc2 d m)) := by
  have hx := mul_trsm hQ hp (solveM f.ee2 (DD2 d m o dt) * solveM f.ee1 (stackM d.s (A1 d m))
    + solveM f.ee2 (stackM d.s (A2 d m)))
  have hu := mul_solveM hQ (solveM f.ee2 (DD2 d m o dt) * solveM f.ee1 (stackM d.s (B1 d m))
    + solveM f.ee2 (stackM d.s (B2 d m)))
  have hv := mul_solveM hQ (solveM f.ee2 (DD2 d m o dt) * solveM f.ee1 (CC1 d m) + solveM f.ee2 (CC2 d m))
  have h0 := mulVec_solveV hQ (solveM f.ee2 (DD2 d m o dt) *ᵥ solveV f.ee1 (cc1 d m)
    + solveV f.ee2 (cc2 d m))
  have eu : ZZu d m o dt f = solveM f.qq1 (solveM f.ee2 (DD2 d m o dt) * solveM f.ee1 (stackM d.s (B1 d m))
    + solveM f.ee2 (stackM d.s (B2 d m))) := by
    unfold ZZu
    generalize solveM f.qq1 _ = X
    ext i j; simp [rowpe, hp]
  rw [← eu] at hu
  change _ * ZZx d m o dt f = _ at hx
  change _ * ZZv d m o dt f = _ at hv
  change _ *ᵥ ZZ0 d m o dt f = _ at h0
  have hz : QQ1 d m o dt f *ᵥ Z1val d (precompute d m o dt f w) x u v
      = solveM f.ee2 (DD2 d m o dt) *ᵥ (solveM f.ee1 (stackM d.s (A1 d m)) *ᵥ x
          + solveM f.ee1 (stackM d.s (B1 d m)) *ᵥ u
          + solveM f.ee1 (CC1 d m) *ᵥ v + solveV f.ee1 (cc1 d m))
        + (solveM f.ee2 (stackM d.s (A2 d m)) *ᵥ x + solveM f.ee2 (stackM d.s (B2 d m)) *ᵥ u
          + solveM f.ee2 (CC2 d m) *ᵥ v + solveV f.ee2 (cc2 d m)) := by
    simp only [Z1val, precompute, Matrix.mulVec_add, h0]
    simp only [Matrix.mulVec_mulVec, hx, hu, hv, Matrix.add_mulVec]
    abel
  rw [K_eq]
  generalize Z1val d (precompute d m o dt f w) x u v = z at hz ⊢
  simp only [QQ1, Matrix.add_mulVec, Matrix.neg_mulVec, Matrix.one_mulVec, ← Matrix.mulVec_mulVec] at hz
  simp only [Matrix.mulVec_add] at hz ⊢
  rw [neg_add_eq_iff_eq_add] at hz
  refine hz.trans ?_
  abel

/-! the user's matrices by blocks -/

theorem userE_inl (k : Fin d.nx1 → K) (z : Fin d.nz1 → K) (r : Fin d.nx1) :
    (user m.E (d.nx1 + d.nz1) (row1 d) (row1 d) *ᵥ Sum.elim k z) (Sum.inl r)
      = (E11 d m *ᵥ k) r + (E12 d m *ᵥ z) r := by
  simp only [Matrix.mulVec, dotProduct, Fintype.sum_sum_type, Sum.elim_inl, Sum.elim_inr, user, row1, E11,
    E12, pack]
  congr 1
  · exact Finset.sum_congr rfl fun c _ => by rw [Nat.zero_add]
  · refine Finset.sum_congr rfl fun c _ => ?_
    rw [show r.val + (d.nx1 + d.nz1) * (d.nx1 + c.val)
      = (d.nx1 + d.nz1) * d.nx1 + r.val + (d.nx1 + d.nz1) * c.val by ring]

theorem userE_inr (k : Fin d.nx1 → K) (z : Fin d.nz1 → K) (r : Fin d.nz1) :
    (user m.E (d.nx1 + d.nz1) (row1 d) (row1 d) *ᵥ Sum.elim k z) (Sum.inr r)
      = (E21 d m *ᵥ k) r + (E22 d m *ᵥ z) r := by
  simp only [Matrix.mulVec, dotProduct, Fintype.sum_sum_type, Sum.elim_inl, Sum.elim_inr, user, row1, E21,
    E22, pack]
  congr 1
  refine Finset.sum_congr rfl fun c _ => ?_
  rw [show d.nx1 + r.val + (d.nx1 + d.nz1) * (d.nx1 + c.val)
      = d.nx1 + (d.nx1 + d.nz1) * d.nx1 + r.val + (d.nx1 + d.nz1) * c.val by ring]

theorem user_inl {n : Nat} (a : Nat → K) (x : Fin n → K) (r : Fin d.nx1) :
    (user a (d.nx1 + d.nz1) (row1 d) Fin.val *ᵥ x) (Sum.inl r)
      = ((pack a 0 (d.nx1 + d.nz1) : Matrix (Fin d.nx1) (Fin n) K) *ᵥ x) r := by
  simp only [Matrix.mulVec, dotProduct, user, row1, pack, Nat.zero_add]

theorem user_inr {n : Nat} (a : Nat → K) (x : Fin n → K) (r : Fin d.nz1) :
    (user a (d.nx1 + d.nz1) (row1 d) Fin.val *ᵥ x) (Sum.inr r)
      = ((pack a d.nx1 (d.nx1 + d.nz1) : Matrix (Fin d.nz1) (Fin n) K) *ᵥ x) r := by
  simp only [Matrix.mulVec, dotProduct, user, row1, pack]

theorem user_pack {p n : Nat} (a : Nat → K) (ld : Nat) :
    (user a ld Fin.val Fin.val : Matrix (Fin p) (Fin n) K) = pack a 0 ld := by
  ext i j; simp [user, pack]

theorem row2_pos2 (r : XZ2 d) : row2 d r = pos2 d r := by cases r <;> rfl

theorem user_LO {n : Nat} (a : Nat → K) :
    (user a (d.nx2 + d.nz2) (row2 d) Fin.val : Matrix (XZ2 d) (Fin n) K) = packLO d a := by
  ext i j; simp [user, packLO, row2_pos2]

theorem user_ELO : user m.E_LO (d.nx2 + d.nz2) (row2 d) (row2 d) = ELO d m := by
  ext i j; simp [user, ELO, row2_pos2]

/-- the assumptions on the factorisations of precompute -/
structure Exact (d : Dims) (m : Mdl K) (o : Opts K) (dt : K) (f : Facts d K) : Prop where
  ee1 : IsLu (EE1 d m o dt) f.ee1
  ee2 : IsLu (EE2 d m) f.ee2
  qq1 : IsLu (QQ1 d m o dt f) f.qq1
  m2 : IsLu (M2 d m o dt) f.m2

theorem LLZ_apply (w : Matrix (YI d) (Z1 d) K) (hw : ∀ a b, a.1 ≠ b.1 → w a b = 0) :
    LLZ d m w = diagM d.s (Lz d m) := by
  ext a b
  rw [diagM_apply]
  unfold LLZ stages
  rw [setBlk_fold]
  by_cases h : a.1 = b.1
  · simp [h]
  · simp [h, hw a b h]

theorem LLK_eq : LLK d m o dt = kron d.s (Adt o dt) (Lx d m) (diagM d.s (Lxdot d m)) := by
  ext p q
  rw [kron_apply]
  have h := addBlk_outer (fun ii jj => Adt o dt (ii.val * d.s + jj.val))
    (fun ii => rowBlk ⟨0, Nat.lt_of_le_of_lt (Nat.zero_le _) ii.isLt⟩ (LLx d m)) (List.finRange d.s)
    (List.nodup_finRange d.s) (diagM d.s (Lxdot d m)) p q
  simp only [List.mem_finRange, if_true] at h
  refine h.trans ?_
  congr 2
  unfold rowBlk LLx
  rw [stackM_apply]

theorem M2_apply (p q) : M2 d m o dt p q = (if p.1 = q.1 then ELO d m p.2 q.2 else 0)
    + (- Adt o dt (q.1.val * d.s + p.1.val))
      * Matrix.fromCols (ALO d m) (0 : Matrix (XZ2 d) (Fin d.nz2) K) p.2 q.2 := by
  have h := m2_fold (fun ii jj => - Adt o dt (ii.val * d.s + jj.val))
    (Matrix.fromCols (ALO d m) (0 : Matrix (XZ2 d) (Fin d.nz2) K)) (ELO d m) (List.finRange d.s)
    (List.nodup_finRange d.s) 0 p q
  simp only [List.mem_finRange, if_true, Matrix.zero_apply] at h
  exact h

theorem M2_eq : M2 d m o dt = kron d.s (fun i => - Adt o dt i)
    (Matrix.fromCols (ALO d m) (0 : Matrix (XZ2 d) (Fin d.nz2) K)) (diagM d.s (ELO d m)) := by
  ext p q
  rw [kron_apply, M2_apply, diagM_apply]

theorem fromCols_mulVec (k : XZ2 d → K) :
    Matrix.fromCols (ALO d m) (0 : Matrix (XZ2 d) (Fin d.nz2) K) *ᵥ k
      = ALO d m *ᵥ fun c => k (Sum.inl c) := by
  ext r
  simp [Matrix.mulVec, dotProduct, Fintype.sum_sum_type]

/-- the linear part of the collocation system is satisfied by the precomputed maps -/
theorem lin_core (hf : Exact d m o dt f) (hp : f.qq1.perm = 1) (w : Stale d K)
    (x : Fin d.nx1 → K) (u : Fin d.nu → K) (v : VV d → K) (j : Fin d.s) :
    Lin1 d m (stageOf o dt x (blk (K1val d (precompute d m o dt f w) x u v)) j)
      (blk (K1val d (precompute d m o dt f w) x u v) j)
      (blk (Z1val d (precompute d m o dt f w) x u v) j) u (blk v j) := by
  have hK := congrArg (EE1 d m o dt *ᵥ ·) (K_eq (m := m) (o := o) (dt := dt) (f := f) x u v w)
  have hZ := congrArg (EE2 d m *ᵥ ·) (Z_eq (m := m) (o := o) (dt := dt) (f := f) hf.qq1 hp x u v w)
  generalize K1val d (precompute d m o dt f w) x u v = k at hK hZ ⊢
  generalize Z1val d (precompute d m o dt f w) x u v = z at hK hZ ⊢
  simp only [Matrix.mulVec_add, mulVec_solveV hf.ee1] at hK
  simp only [Matrix.mulVec_add, mulVec_solveV hf.ee2] at hZ
  simp only [Matrix.mulVec_mulVec, mul_solveM hf.ee1] at hK
  simp only [Matrix.mulVec_mulVec, mul_solveM hf.ee2] at hZ
  unfold Lin1
  ext r
  cases r with
  | inl r =>
    have h := congrFun hK (j, r)
    simp only [EE1, DD1, CC1, Pi.add_apply, kron_mulVec, diagM_mulVec, stackM_mulVec, cc1_apply,
      Matrix.neg_mulVec, Pi.neg_apply, neg_mul, Finset.sum_neg_distrib] at h
    simp only [Pi.add_apply, userE_inl, user_inl]
    have e := mulVec_stageOf o dt (A1 d m) x (blk k) j r
    simp only [A1, B1, C1, row1] at h e ⊢
    rw [e]
    linear_combination h
  | inr r =>
    have h := congrFun hZ (j, r)
    simp only [EE2, DD2, CC2, Pi.add_apply, kron_mulVec, diagM_mulVec, stackM_mulVec, cc2_apply,
      Matrix.neg_mulVec, Pi.neg_apply] at h
    simp only [Pi.add_apply, userE_inr, user_inr]
    have e := mulVec_stageOf o dt (A2 d m) x (blk k) j r
    simp only [A2, B2, C2, row1] at h e ⊢
    rw [e]
    linear_combination h

/-- the precomputed maps give the input of the nonlinearity -/
theorem y_core (w : Stale d K) (hw : ∀ a b, a.1 ≠ b.1 → w.llz a b = 0)
    (x : Fin d.nx1 → K) (u : Fin d.nu → K) (v : VV d → K) (j : Fin d.s) :
    blk (yy d (precompute d m o dt f w) x u v) j
      = yOf d m (stageOf o dt x (blk (K1val d (precompute d m o dt f w) x u v)) j)
          (blk (K1val d (precompute d m o dt f w) x u v) j)
          (blk (Z1val d (precompute d m o dt f w) x u v) j) := by
  have h1 : yy d (precompute d m o dt f w) x u v
      = LLZ d m w.llz *ᵥ Z1val d (precompute d m o dt f w) x u v
        + (LLK d m o dt *ᵥ K1val d (precompute d m o dt f w) x u v + LLx d m *ᵥ x) := by
    simp only [yy, yyss, K1val, Z1val, precompute, Matrix.add_mulVec, Matrix.mulVec_add,
      Matrix.mulVec_mulVec]
    abel
  generalize K1val d (precompute d m o dt f w) x u v = k at h1 ⊢
  generalize Z1val d (precompute d m o dt f w) x u v = z at h1 ⊢
  rw [LLZ_apply _ hw, LLK_eq] at h1
  ext r
  have h := congrFun h1 (j, r)
  simp only [LLx, Pi.add_apply, kron_mulVec, diagM_mulVec, stackM_mulVec] at h
  have e := mulVec_stageOf o dt (Lx d m) x (blk k) j r
  simp only [yOf, user_pack, Pi.add_apply, blk]
  simp only [Lx, Lxdot, Lz, blk] at h e
  rw [h, e]
  ring

end core
end Acados.Gnsf
