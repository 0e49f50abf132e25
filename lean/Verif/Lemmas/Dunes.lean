import Verif.Model.Dunes
import Mathlib.Tactic.Ring
import Mathlib.Tactic.Linarith
import Mathlib.Tactic.SplitIfs
import Mathlib.Algebra.BigOperators.Intervals
/-!
# Lemmas for the qpDUNES interface
-/
namespace Acados.Dunes
open Finset
open Acados.QpScal (Stage Qp Sol WF)
variable {K : Type*} [Field K] [LinearOrder K]

/-! ### Assignments -/

theorem assigns_snoc {α : Type*} (l : List α) (a : α) (adr : α → Nat) (val : α → K) (buf : Nat → K) :
    assigns (l ++ [a]) adr val buf = Function.update (assigns l adr val buf) (adr a) (val a) := by
  unfold assigns; rw [List.foldl_append]; rfl

theorem assigns_of {α : Type*} (l : List α) (adr : α → Nat) (val : α → K) (buf : Nat → K) :
    (∀ a ∈ l, (∀ b ∈ l, adr b = adr a → val b = val a) → assigns l adr val buf (adr a) = val a) ∧
    ∀ p, (∀ a ∈ l, adr a ≠ p) → assigns l adr val buf p = buf p := by
  induction l using List.reverseRecOn with
  | nil => exact ⟨fun a h => absurd h (by simp), fun _ _ => rfl⟩
  | append_singleton l x ih =>
    rw [assigns_snoc]
    refine ⟨fun a ha hc => ?_, fun p hp => ?_⟩
    · by_cases e : adr x = adr a
      · rw [← e, Function.update_self]; exact hc x (by simp) e
      · rw [Function.update_of_ne (Ne.symm e)]
        have hl : a ∈ l := by
          rcases List.mem_append.1 ha with h | h
          · exact h
          · exact absurd (by rw [List.mem_singleton.1 h]) e
        exact ih.1 a hl fun b hb => hc b (List.mem_append_left _ hb)
    · rw [Function.update_of_ne (Ne.symm (hp x (by simp)))]
      exact ih.2 p fun a ha => hp a (List.mem_append_left _ ha)

theorem mem_pairs {m n : Nat} {a : Nat × Nat} : a ∈ pairs m n ↔ a.1 < m ∧ a.2 < n := by
  obtain ⟨i, j⟩ := a
  simp only [pairs, List.mem_flatMap, List.mem_range, List.mem_map, Prod.mk.injEq]
  constructor
  · rintro ⟨j', hj, i', hi, rfl, rfl⟩; exact ⟨hi, hj⟩
  · rintro ⟨hi, hj⟩; exact ⟨j, hj, i, hi, rfl, rfl⟩

theorem lda_inj {lda i j i' j' : Nat} (hi : i < lda) (hi' : i' < lda) (h : i + j * lda = i' + j' * lda) : i = i' ∧ j = j' := by
  have e : i = i' := by
    have := congrArg (· % lda) h
    simpa [Nat.add_mul_mod_self_right, Nat.mod_eq_of_lt hi, Nat.mod_eq_of_lt hi'] using this
  refine ⟨e, ?_⟩
  subst e
  exact Nat.eq_of_mul_eq_mul_right (by omega : 0 < lda) (by omega)

theorem unpackMat_spec (m n : Nat) (M : Nat → Nat → K) (ai aj off lda : Nat) (buf : Nat → K) (hm : m ≤ lda) :
    (∀ i < m, ∀ j < n, unpackMat m n M ai aj off lda buf (off + (i + j * lda)) = M (ai + i) (aj + j)) ∧
    ∀ p, (∀ i < m, ∀ j < n, off + (i + j * lda) ≠ p) → unpackMat m n M ai aj off lda buf p = buf p := by
  obtain ⟨h1, h2⟩ := assigns_of (pairs m n) (fun a => off + (a.1 + a.2 * lda)) (fun a => M (ai + a.1) (aj + a.2)) buf
  refine ⟨fun i hi j hj => h1 (i, j) (mem_pairs.2 ⟨hi, hj⟩) fun b hb e => ?_, fun p hp => h2 p fun a ha =>
    hp _ (mem_pairs.1 ha).1 _ (mem_pairs.1 ha).2⟩
  obtain ⟨b1, b2⟩ := mem_pairs.1 hb
  have := lda_inj (by omega : b.1 < lda) (by omega : i < lda) (by simpa using e)
  simp only [this.1, this.2]

theorem unpackTran_spec (m n : Nat) (M : Nat → Nat → K) (ai aj off lda : Nat) (buf : Nat → K) (hn : n ≤ lda) :
    (∀ i < m, ∀ j < n, unpackTran m n M ai aj off lda buf (off + (j + i * lda)) = M (ai + i) (aj + j)) ∧
    ∀ p, (∀ i < m, ∀ j < n, off + (j + i * lda) ≠ p) → unpackTran m n M ai aj off lda buf p = buf p := by
  obtain ⟨h1, h2⟩ := assigns_of (pairs m n) (fun a => off + (a.2 + a.1 * lda)) (fun a => M (ai + a.1) (aj + a.2)) buf
  refine ⟨fun i hi j hj => h1 (i, j) (mem_pairs.2 ⟨hi, hj⟩) fun b hb e => ?_, fun p hp => h2 p fun a ha =>
    hp _ (mem_pairs.1 ha).1 _ (mem_pairs.1 ha).2⟩
  obtain ⟨b1, b2⟩ := mem_pairs.1 hb
  have := lda_inj (by omega : b.2 < lda) (by omega : j < lda) (by simpa using e)
  simp only [this.1, this.2]

theorem unpackVec_spec (m : Nat) (v : Nat → K) (ai off : Nat) (buf : Nat → K) :
    (∀ i < m, unpackVec m v ai off buf (off + i) = v (ai + i)) ∧
    ∀ p, (∀ i < m, off + i ≠ p) → unpackVec m v ai off buf p = buf p := by
  obtain ⟨h1, h2⟩ := assigns_of (List.range m) (fun i => off + i) (fun i => v (ai + i)) buf
  refine ⟨fun i hi => h1 i (List.mem_range.2 hi) fun b _ e => by rw [Nat.add_left_cancel e], fun p hp => h2 p fun a ha =>
    hp _ (List.mem_range.1 ha)⟩

/-! ### Pieces -/

theorem upos_lt {nx nu j : Nat} (h : j < nx + nu) : upos nx nu j < nu + nx := by unfold upos; split_ifs <;> omega

theorem zpos_lt {nx nu r : Nat} (h : r < nu + nx) : zpos nx nu r < nx + nu := by unfold zpos; split_ifs <;> omega

theorem upos_zpos {nx nu r : Nat} (h : r < nu + nx) : upos nx nu (zpos nx nu r) = r := by
  unfold upos zpos
  by_cases h1 : r < nu
  · rw [if_pos h1, if_neg (by omega)]; omega
  · rw [if_neg h1, if_pos (by omega)]; omega

theorem zpos_upos {nx nu j : Nat} (h : j < nx + nu) : zpos nx nu (upos nx nu j) = j := by
  unfold upos zpos
  by_cases h1 : j < nx
  · rw [if_pos h1, if_neg (by omega)]; omega
  · rw [if_neg h1, if_pos (by omega)]; omega

theorem fullSym_eq {n m o : Nat} {M : Nat → Nat → K} (h : SymOn n M) (_hn : o + m ≤ n) :
    ∀ i < n, ∀ j < n, fullSym m o M i j = M i j := by
  intro i hi j hj
  unfold fullSym
  split_ifs
  · exact h j hj i hi
  · rfl

theorem fullSym_sym {n m o : Nat} {M : Nat → Nat → K} (h : SymOn n M) (hn : o + m ≤ n) : SymOn n (fullSym m o M) := by
  intro i hi j hj
  rw [fullSym_eq h hn i hi j hj, fullSym_eq h hn j hj i hi]; exact h i hi j hj

theorem formH_spec (nx nu : Nat) (M : Nat → Nat → K) (hM : SymOn (nu + nx) M) (H : Nat → K) :
    (∀ i < nx + nu, ∀ j < nx + nu, byRows (nx + nu) (formH nx nu M H).1 i j = M (upos nx nu i) (upos nx nu j)) ∧
    ∀ i < nu + nx, ∀ j < nu + nx, (formH nx nu M H).2 i j = M i j := by
  have hM1 := fullSym_sym (m := nx) (o := nu) hM (le_refl _)
  have e1 := fullSym_eq (m := nx) (o := nu) hM (le_refl _)
  have e2 := fullSym_eq (m := nu) (o := 0) hM1 (by omega)
  generalize hM1' : fullSym nx nu M = M1 at hM1 e1 e2
  have e12 : ∀ i < nu + nx, ∀ j < nu + nx, fullSym nu 0 M1 i j = M i j := fun i hi j hj => by rw [e2 i hi j hj, e1 i hi j hj]
  have hdef : formH nx nu M H = (unpackTran nx nu (fullSym nu 0 M1) nu 0 nx (nx + nu)
      (unpackMat nx nu (fullSym nu 0 M1) nu 0 (nx * (nx + nu)) (nx + nu)
        (unpackMat nu nu (fullSym nu 0 M1) 0 0 (nx * (nx + nu) + nx) (nx + nu)
          (unpackMat nx nx M1 nu nu 0 (nx + nu) H))), fullSym nu 0 M1) := by rw [← hM1']; rfl
  rw [hdef]
  refine ⟨fun i hi j hj => ?_, e12⟩
  simp only [byRows]
  generalize hM2 : fullSym nu 0 M1 = M2 at e12
  obtain ⟨q1, q2⟩ := unpackMat_spec nx nx M1 nu nu 0 (nx + nu) H (by omega)
  generalize unpackMat nx nx M1 nu nu 0 (nx + nu) H = B1 at q1 q2 ⊢
  obtain ⟨r1, r2⟩ := unpackMat_spec nu nu M2 0 0 (nx * (nx + nu) + nx) (nx + nu) B1 (by omega)
  generalize unpackMat nu nu M2 0 0 (nx * (nx + nu) + nx) (nx + nu) B1 = B2 at r1 r2 ⊢
  obtain ⟨s1, s2⟩ := unpackMat_spec nx nu M2 nu 0 (nx * (nx + nu)) (nx + nu) B2 (by omega)
  generalize unpackMat nx nu M2 nu 0 (nx * (nx + nu)) (nx + nu) B2 = B3 at s1 s2 ⊢
  obtain ⟨t1, t2⟩ := unpackTran_spec nx nu M2 nu 0 nx (nx + nu) B3 (by omega)
  generalize unpackTran nx nu M2 nu 0 nx (nx + nu) B3 = B4 at t1 t2 ⊢
  -- positions as (column, row) pairs
  have pos : ∀ a b a' b' : Nat, a < nx + nu → a' < nx + nu → a + b * (nx + nu) = a' + b' * (nx + nu) → a = a' ∧ b = b' :=
    fun a b a' b' h1 h2 h => lda_inj h1 h2 h
  have sh : ∀ a b c : Nat, nx * (nx + nu) + c + (a + b * (nx + nu)) = (c + a) + (nx + b) * (nx + nu) := fun a b c => by ring
  have sh0 : ∀ a b : Nat, nx * (nx + nu) + (a + b * (nx + nu)) = a + (nx + b) * (nx + nu) := fun a b => by ring
  by_cases hi1 : i < nx
  · by_cases hj1 : j < nx
    · -- Q
      have u1 : upos nx nu i = nu + i := if_pos hi1
      have u2 : upos nx nu j = nu + j := if_pos hj1
      rw [u1, u2]
      rw [t2 _ (fun a ha b hb e => by have := pos (nx + b) a j i (by omega) (by omega) (by omega); omega),
        s2 _ (fun a ha b hb e => by rw [sh0] at e; have := pos a (nx + b) j i (by omega) (by omega) (by omega); omega),
        r2 _ (fun a ha b hb e => by rw [sh] at e; have := pos (nx + a) (nx + b) j i (by omega) (by omega) (by omega); omega)]
      have := q1 j hj1 i hi1
      rw [Nat.zero_add, Nat.add_comm j] at this
      rw [this, e1 _ (by omega) _ (by omega)]
      exact hM _ (by omega) _ (by omega)
    · -- S
      have u1 : upos nx nu i = nu + i := if_pos hi1
      have u2 : upos nx nu j = j - nx := if_neg hj1
      rw [u1, u2]
      have := t1 i hi1 (j - nx) (by omega)
      rw [show nx + (j - nx + i * (nx + nu)) = i * (nx + nu) + j by omega] at this
      rw [this, e12 _ (by omega) _ (by omega), Nat.zero_add]
  · by_cases hj1 : j < nx
    · have u1 : upos nx nu i = i - nx := if_neg hi1
      have u2 : upos nx nu j = nu + j := if_pos hj1
      rw [u1, u2]
      rw [t2 _ (fun a ha b hb e => by have := pos (nx + b) a j i (by omega) (by omega) (by omega); omega)]
      have := s1 j hj1 (i - nx) (by omega)
      rw [sh0, show nx + (i - nx) = i by omega, Nat.add_comm j] at this
      rw [this, e12 _ (by omega) _ (by omega), Nat.zero_add]
      exact hM _ (by omega) _ (by omega)
    · have u1 : upos nx nu i = i - nx := if_neg hi1
      have u2 : upos nx nu j = j - nx := if_neg hj1
      rw [u1, u2]
      rw [t2 _ (fun a ha b hb e => by have := pos (nx + b) a j i (by omega) (by omega) (by omega); omega),
        s2 _ (fun a ha b hb e => by rw [sh0] at e; have := pos a (nx + b) j i (by omega) (by omega) (by omega); omega)]
      have := r1 (j - nx) (by omega) (i - nx) (by omega)
      rw [sh, show nx + (j - nx) = j by omega, show nx + (i - nx) = i by omega, Nat.add_comm j] at this
      rw [this, e12 _ (by omega) _ (by omega), Nat.zero_add, Nat.zero_add]
      exact hM _ (by omega) _ (by omega)

theorem formRSQ_spec (nx nu : Nat) (M : Nat → Nat → K) (hM : SymOn (nu + nx) M) (R S Q : Nat → K) :
    (∀ i < nu, ∀ j < nu, (formRSQ nx nu M R S Q).1 (i * nu + j) = M i j) ∧
    (∀ i < nx, ∀ j < nu, (formRSQ nx nu M R S Q).2.1 (i * nu + j) = M (nu + i) j) ∧
    (∀ i < nx, ∀ j < nx, (formRSQ nx nu M R S Q).2.2.1 (i * nx + j) = M (nu + i) (nu + j)) ∧
    ∀ i < nu + nx, ∀ j < nu + nx, (formRSQ nx nu M R S Q).2.2.2 i j = M i j := by
  have hM1 := fullSym_sym (m := nx) (o := nu) hM (le_refl _)
  have e1 := fullSym_eq (m := nx) (o := nu) hM (le_refl _)
  have e2 := fullSym_eq (m := nu) (o := 0) hM1 (by omega)
  have e12 : ∀ i < nu + nx, ∀ j < nu + nx, fullSym nu 0 (fullSym nx nu M) i j = M i j :=
    fun i hi j hj => by rw [e2 i hi j hj, e1 i hi j hj]
  refine ⟨fun i hi j hj => ?_, fun i hi j hj => ?_, fun i hi j hj => ?_, e12⟩
  · have := (unpackMat_spec nu nu (fullSym nu 0 (fullSym nx nu M)) 0 0 0 nu R (le_refl _)).1 j hj i hi
    rw [Nat.zero_add, Nat.zero_add, Nat.zero_add, Nat.add_comm j, e12 _ (by omega) _ (by omega)] at this
    exact this.trans (hM _ (by omega) _ (by omega))
  · have := (unpackTran_spec nx nu (fullSym nu 0 (fullSym nx nu M)) nu 0 0 nu S (le_refl _)).1 i hi j hj
    rw [Nat.zero_add, Nat.zero_add, Nat.add_comm j, e12 _ (by omega) _ (by omega)] at this
    exact this
  · have := (unpackMat_spec nx nx (fullSym nx nu M) nu nu 0 nx Q (le_refl _)).1 j hj i hi
    rw [Nat.zero_add, Nat.add_comm j, e1 _ (by omega) _ (by omega)] at this
    exact this.trans (hM _ (by omega) _ (by omega))

theorem hessOf_spec (nx nu : Nat) (M : Nat → Nat → K) (hM : SymOn (nu + nx) M) (R S Q : Nat → K) :
    (∀ i < nx + nu, ∀ j < nx + nu, hessOf nx nu (formRSQ nx nu M R S Q).2.2.1 (formRSQ nx nu M R S Q).1
      (some (formRSQ nx nu M R S Q).2.1) i j = M (upos nx nu i) (upos nx nu j)) ∧
    ((∀ i < nx, ∀ j < nu, M (nu + i) j = 0) → ∀ i < nx + nu, ∀ j < nx + nu,
      hessOf nx nu (formRSQ nx nu M R S Q).2.2.1 (formRSQ nx nu M R S Q).1 none i j = M (upos nx nu i) (upos nx nu j)) := by
  obtain ⟨r, s, q, -⟩ := formRSQ_spec nx nu M hM R S Q
  refine ⟨fun i hi j hj => ?_, fun h0 i hi j hj => ?_⟩
  · unfold hessOf upos
    by_cases hi1 : i < nx
    · by_cases hj1 : j < nx
      · rw [if_pos hi1, if_pos hj1, if_pos hi1, if_pos hj1]; exact q i hi1 j hj1
      · rw [if_pos hi1, if_neg hj1, if_pos hi1, if_neg hj1]; exact s i hi1 (j - nx) (by omega)
    · by_cases hj1 : j < nx
      · rw [if_neg hi1, if_pos hj1, if_neg hi1, if_pos hj1]
        exact (s j hj1 (i - nx) (by omega)).trans (hM _ (by omega) _ (by omega))
      · rw [if_neg hi1, if_neg hj1, if_neg hi1, if_neg hj1]; exact r (i - nx) (by omega) (j - nx) (by omega)
  · unfold hessOf upos
    by_cases hi1 : i < nx
    · by_cases hj1 : j < nx
      · rw [if_pos hi1, if_pos hj1, if_pos hi1, if_pos hj1]; exact q i hi1 j hj1
      · rw [if_pos hi1, if_neg hj1, if_pos hi1, if_neg hj1]; exact (h0 i hi1 (j - nx) (by omega)).symm
    · by_cases hj1 : j < nx
      · rw [if_neg hi1, if_pos hj1, if_neg hi1, if_pos hj1]
        exact ((hM _ (by omega) _ (by omega)).trans (h0 j hj1 (i - nx) (by omega))).symm
      · rw [if_neg hi1, if_neg hj1, if_neg hi1, if_neg hj1]; exact r (i - nx) (by omega) (j - nx) (by omega)

theorem formG_spec (nx nu : Nat) (rq g : Nat → K) : ∀ j < nx + nu, formG nx nu rq g j = rq (upos nx nu j) := by
  intro j hj
  unfold formG upos
  by_cases hj1 : j < nx
  · rw [if_pos hj1, (unpackVec_spec nu rq 0 nx _).2 j (fun i hi => by omega)]
    have := (unpackVec_spec nx rq nu 0 g).1 j hj1
    rwa [Nat.zero_add] at this
  · rw [if_neg hj1]
    have := (unpackVec_spec nu rq 0 nx (unpackVec nx rq nu 0 g)).1 (j - nx) (by omega)
    rwa [show nx + (j - nx) = j by omega, Nat.zero_add] at this

/-- two blocks of rows of a matrix, by rows: `A` then `B` -/
theorem blocks_spec (nx nu n : Nat) (M : Nat → Nat → K) (buf : Nat → K) :
    ∀ i < n, ∀ j < nx + nu, byRows (nx + nu) (unpackMat nu n M 0 0 nx (nx + nu) (unpackMat nx n M nu 0 0 (nx + nu) buf)) i j
      = M (upos nx nu j) i := by
  intro i hi j hj
  unfold byRows upos
  by_cases hj1 : j < nx
  · rw [if_pos hj1, (unpackMat_spec nu n M 0 0 nx (nx + nu) _ (by omega)).2 _ (fun a ha b hb e => by
      have := lda_inj (by omega : nx + a < nx + nu) (by omega : j < nx + nu) (by omega : nx + a + b * (nx + nu) = j + i * (nx + nu))
      omega)]
    have := (unpackMat_spec nx n M nu 0 0 (nx + nu) buf (by omega)).1 j hj1 i hi
    rwa [Nat.zero_add, Nat.zero_add, Nat.add_comm j] at this
  · rw [if_neg hj1]
    have := (unpackMat_spec nu n M 0 0 nx (nx + nu) (unpackMat nx n M nu 0 0 (nx + nu) buf) (by omega)).1 (j - nx) (by omega) i hi
    rwa [show nx + (j - nx + i * (nx + nu)) = i * (nx + nu) + j by omega, Nat.zero_add, Nat.zero_add] at this

theorem formDynamics_spec (nx nu : Nat) (BAbt : Nat → Nat → K) (b ABt c : Nat → K) :
    (∀ i < nx, ∀ j < nx + nu, byRows (nx + nu) (formDynamics nx nu BAbt b ABt c).1 i j = BAbt (upos nx nu j) i) ∧
    ∀ i < nx, (formDynamics nx nu BAbt b ABt c).2 i = b i := by
  refine ⟨blocks_spec nx nu nx BAbt ABt, fun i hi => ?_⟩
  have := (unpackVec_spec nx b 0 0 c).1 i hi
  rwa [Nat.zero_add] at this

theorem neg_loop (n : Nat) (u : Nat → K) :
    (∀ i < n, (List.range n).foldl (fun (u : Nat → K) i => Function.update u i (-u i)) u i = - u i) ∧
    ∀ i, n ≤ i → (List.range n).foldl (fun (u : Nat → K) i => Function.update u i (-u i)) u i = u i := by
  induction n with
  | zero => exact ⟨fun i h => by omega, fun _ _ => rfl⟩
  | succ n ih =>
    rw [List.range_succ, List.foldl_append]
    simp only [List.foldl_cons, List.foldl_nil]
    refine ⟨fun i hi => ?_, fun i hi => ?_⟩
    · by_cases e : i = n
      · subst e; rw [Function.update_self, ih.2 i (le_refl _)]
      · rw [Function.update_of_ne e, ih.1 i (by omega)]
    · rw [Function.update_of_ne (by omega), ih.2 i (by omega)]

theorem formIneq_spec (nx nu nb ng : Nat) (DCt : Nat → Nat → K) (d Ct lc uc : Nat → K) :
    (∀ i < ng, ∀ j < nx + nu, byRows (nx + nu) (formIneq nx nu nb ng DCt d Ct lc uc).1 i j = DCt (upos nx nu j) i) ∧
    (∀ i < ng, (formIneq nx nu nb ng DCt d Ct lc uc).2.1 i = d (nb + i)) ∧
    ∀ i < ng, (formIneq nx nu nb ng DCt d Ct lc uc).2.2 i = - d (2 * nb + ng + i) := by
  refine ⟨blocks_spec nx nu ng DCt Ct, fun i hi => ?_, fun i hi => ?_⟩
  · have := (unpackVec_spec ng d nb 0 lc).1 i hi
    rwa [Nat.zero_add] at this
  · have h1 := (neg_loop ng (unpackVec ng d (2 * nb + ng) 0 uc)).1 i hi
    have h2 := (unpackVec_spec ng d (2 * nb + ng) 0 uc).1 i hi
    rw [Nat.zero_add] at h2
    rw [h2] at h1
    exact h1

theorem formBounds_spec (inf : K) (nx nu nb ng : Nat) (idxb : Nat → Nat) (d zLow zUpp : Nat → K)
    (hx : ∀ i < nb, idxb i < nu + nx) (hinj : ∀ i < nb, ∀ j < nb, idxb i = idxb j → i = j) :
    (∀ i < nb, (formBounds inf nx nu nb ng idxb d zLow zUpp).1 (zpos nx nu (idxb i)) = d i ∧
      (formBounds inf nx nu nb ng idxb d zLow zUpp).2 (zpos nx nu (idxb i)) = - d (nb + ng + i)) ∧
    ∀ j < nx + nu, (∀ i < nb, idxb i ≠ upos nx nu j) → (formBounds inf nx nu nb ng idxb d zLow zUpp).1 j = -inf ∧
      (formBounds inf nx nu nb ng idxb d zLow zUpp).2 j = inf := by
  have inj : ∀ i < nb, ∀ j < nb, zpos nx nu (idxb i) = zpos nx nu (idxb j) → i = j := by
    intro i hi j hj e
    have := congrArg (upos nx nu) e
    rw [upos_zpos (hx i hi), upos_zpos (hx j hj)] at this
    exact hinj i hi j hj this
  have fin : ∀ (c : K) (buf : Nat → K), ∀ j < nx + nu, assigns (List.range (nx + nu)) id (fun _ => c) buf j = c := by
    intro c buf j hj
    exact (assigns_of (List.range (nx + nu)) id (fun _ => c) buf).1 j (List.mem_range.2 hj) fun _ _ _ => rfl
  have key : ∀ (val buf : Nat → K), (∀ i < nb, assigns (List.range nb) (fun i => zpos nx nu (idxb i)) val buf (zpos nx nu (idxb i)) = val i) ∧
      ∀ j < nx + nu, (∀ i < nb, idxb i ≠ upos nx nu j) → assigns (List.range nb) (fun i => zpos nx nu (idxb i)) val buf j = buf j := by
    intro val buf
    obtain ⟨h1, h2⟩ := assigns_of (List.range nb) (fun i => zpos nx nu (idxb i)) val buf
    refine ⟨fun i hi => h1 i (List.mem_range.2 hi) fun b hb e => by rw [inj b (List.mem_range.1 hb) i hi e], fun j hj hn =>
      h2 j fun i hi e => hn i (List.mem_range.1 hi) ?_⟩
    have := congrArg (upos nx nu) e
    rwa [upos_zpos (hx i (List.mem_range.1 hi))] at this
  refine ⟨fun i hi => ⟨(key _ _).1 i hi, ?_⟩, fun j hj hn => ⟨?_, ?_⟩⟩
  · have := (key (fun i => - d (i + nb + ng)) (assigns (List.range (nx + nu)) id (fun _ => inf) zUpp)).1 i hi
    rw [show i + nb + ng = nb + ng + i by omega] at this
    exact this
  · exact ((key _ _).2 j hj hn).trans (fin _ _ j hj)
  · exact ((key _ _).2 j hj hn).trans (fin _ _ j hj)

/-! ### Intervals -/

theorem bndj {nx nu nb ng : Nat} {idxb : Nat → Nat} {d zl zu : Nat → K} (hi : ∀ i < nb, idxb i < nu + nx)
    (h : ∀ i < nb, zl (zpos nx nu (idxb i)) = d i ∧ zu (zpos nx nu (idxb i)) = - d (nb + ng + i)) :
    ∀ i < nb, ∀ j < nx + nu, upos nx nu j = idxb i → zl j = d i ∧ zu j = - d (nb + ng + i) := by
  intro i hi' j hj e
  rw [← zpos_upos hj, e]
  exact h i hi'

theorem Matches.bndz {inf : K} {nx nu : Nat} {last : Prop} {s : Stage K} {t : DStage K} (h : Matches inf nx nu last s t)
    (hi : ∀ i < s.nb, s.idxb i < nu + nx) (i : Nat) (hi' : i < s.nb) :
    t.zLow (zpos nx nu (s.idxb i)) = s.d i ∧ t.zUpp (zpos nx nu (s.idxb i)) = - s.d (s.nb + s.ng + i) :=
  h.bnd i hi' _ (zpos_lt (hi i hi')) (upos_zpos (hi i hi'))

theorem setupStage_matches (o : DOpts K) (nx nu : Nat) (s : Stage K) (w : Work K) (h : StageOk nx nu s)
    (hc : o.clip = true → s.ng = 0 ∧ ∀ i < nx, ∀ j < nu, s.H (nu + i) j = 0) :
    Matches o.inf nx nu False s (setupStage o nx nu s w).1 ∧
    ∀ i < nu + nx, ∀ j < nu + nx, (setupStage o nx nu s w).2.2 i j = s.H i j := by
  obtain ⟨b1, b2⟩ := formBounds_spec o.inf nx nu s.nb s.ng s.idxb s.d w.zLow w.zUpp h.idxb h.inj
  obtain ⟨d1, d2⟩ := formDynamics_spec nx nu s.BAbt s.b w.ABt w.b
  obtain ⟨i1, i2, i3⟩ := formIneq_spec nx nu s.nb s.ng s.DCt s.d w.Ct w.lc w.uc
  obtain ⟨h1, h2⟩ := hessOf_spec nx nu s.H h.sym w.R w.S w.Q
  have h3 := (formRSQ_spec nx nu s.H h.sym w.R w.S w.Q).2.2.2
  have hin : ∀ i, i < s.ng → (!o.clip && decide (s.ng ≠ 0)) = true := by
    intro i hi
    cases hcl : o.clip with
    | true => have := (hc hcl).1; omega
    | false => simp; omega
  refine ⟨⟨?_, formG_spec nx nu s.g w.g, fun _ => d1, fun _ => d2, bndj h.idxb b1, b2, fun i hi j hj => ?_, fun i hi => ?_, fun i hi => ?_⟩, h3⟩
  · cases hcl : o.clip with
    | true =>
      have e : (setupStage o nx nu s w).1.H = hessOf nx nu (formRSQ nx nu s.H w.R w.S w.Q).2.2.1 (formRSQ nx nu s.H w.R w.S w.Q).1 none := by
        simp only [setupStage, hcl, if_true]
      rw [e]; exact h2 (hc hcl).2
    | false =>
      have e : (setupStage o nx nu s w).1.H = hessOf nx nu (formRSQ nx nu s.H w.R w.S w.Q).2.2.1 (formRSQ nx nu s.H w.R w.S w.Q).1
          (some (formRSQ nx nu s.H w.R w.S w.Q).2.1) := by
        simp only [setupStage, hcl, Bool.false_eq_true, if_false]
      rw [e]; exact h1
  · have e : (setupStage o nx nu s w).1.D = byRows (nx + nu) (formIneq nx nu s.nb s.ng s.DCt s.d w.Ct w.lc w.uc).1 := by
      simp only [setupStage]; rw [if_pos (hin i hi)]
    rw [e]; exact i1 i hi j hj
  · have e : (setupStage o nx nu s w).1.dLow = (formIneq nx nu s.nb s.ng s.DCt s.d w.Ct w.lc w.uc).2.1 := by
      simp only [setupStage]; rw [if_pos (hin i hi)]
    rw [e]; exact i2 i hi
  · have e : (setupStage o nx nu s w).1.dUpp = (formIneq nx nu s.nb s.ng s.DCt s.d w.Ct w.lc w.uc).2.2 := by
      simp only [setupStage]; rw [if_pos (hin i hi)]
    rw [e]; exact i3 i hi

theorem updateStage_matches (o : DOpts K) (nx nu : Nat) (s : Stage K) (old : DStage K) (w : Work K) (h : StageOk nx nu s) :
    Matches o.inf nx nu False s (updateStage o nx nu s old w).1 ∧
    ∀ i < nu + nx, ∀ j < nu + nx, (updateStage o nx nu s old w).2.2 i j = s.H i j := by
  obtain ⟨b1, b2⟩ := formBounds_spec o.inf nx nu s.nb s.ng s.idxb s.d w.zLow w.zUpp h.idxb h.inj
  obtain ⟨d1, d2⟩ := formDynamics_spec nx nu s.BAbt s.b w.ABt w.b
  obtain ⟨i1, i2, i3⟩ := formIneq_spec nx nu s.nb s.ng s.DCt s.d w.Ct w.lc w.uc
  obtain ⟨h1, h2⟩ := formH_spec nx nu s.H h.sym w.H
  by_cases hng : s.ng = 0
  · unfold updateStage
    simp only
    rw [if_pos hng]
    exact ⟨⟨h1, formG_spec nx nu s.g w.g, fun _ => d1, fun _ => d2, bndj h.idxb b1, b2, fun i hi => by omega, fun i hi => by omega,
      fun i hi => by omega⟩, h2⟩
  · unfold updateStage
    simp only
    rw [if_neg hng]
    exact ⟨⟨h1, formG_spec nx nu s.g w.g, fun _ => d1, fun _ => d2, bndj h.idxb b1, b2, i1, i2, i3⟩, h2⟩

theorem last_pieces (nx : Nat) (M : Nat → Nat → K) (hM : SymOn (0 + nx) M) (R S Q : Nat → K) :
    ∀ i < nx + 0, ∀ j < nx + 0, byRows nx (formRSQ nx 0 M R S Q).2.2.1 i j = M (upos nx 0 i) (upos nx 0 j) := by
  intro i hi j hj
  have := (formRSQ_spec nx 0 M hM R S Q).2.2.1 i hi j hj
  unfold upos
  rw [if_pos (by omega), if_pos (by omega)]
  exact this

theorem setupLast_matches (o : DOpts K) (nx : Nat) (s : Stage K) (w : Work K) (h : StageOk nx 0 s) :
    Matches o.inf nx 0 True s (setupLast o nx s w).1 ∧ ∀ i < 0 + nx, ∀ j < 0 + nx, (setupLast o nx s w).2.2 i j = s.H i j := by
  obtain ⟨b1, b2⟩ := formBounds_spec o.inf nx 0 s.nb s.ng s.idxb s.d w.zLow w.zUpp h.idxb h.inj
  obtain ⟨i1, i2, i3⟩ := formIneq_spec nx 0 s.nb s.ng s.DCt s.d w.Ct w.lc w.uc
  have h3 := (formRSQ_spec nx 0 s.H h.sym w.R w.S w.Q).2.2.2
  refine ⟨⟨last_pieces nx s.H h.sym w.R w.S w.Q, formG_spec nx 0 s.g w.g, fun h => absurd trivial h, fun h => absurd trivial h, bndj h.idxb b1, b2,
    fun i hi j hj => ?_, fun i hi => ?_, fun i hi => ?_⟩, h3⟩
  · have e : (setupLast o nx s w).1.D = byRows nx (formIneq nx 0 s.nb s.ng s.DCt s.d w.Ct w.lc w.uc).1 := by
      simp only [setupLast]; rw [if_pos (by omega)]
    rw [e]; exact i1 i hi j hj
  · have e : (setupLast o nx s w).1.dLow = (formIneq nx 0 s.nb s.ng s.DCt s.d w.Ct w.lc w.uc).2.1 := by
      simp only [setupLast]; rw [if_pos (by omega)]
    rw [e]; exact i2 i hi
  · have e : (setupLast o nx s w).1.dUpp = (formIneq nx 0 s.nb s.ng s.DCt s.d w.Ct w.lc w.uc).2.2 := by
      simp only [setupLast]; rw [if_pos (by omega)]
    rw [e]; exact i3 i hi

theorem updateLast_matches (o : DOpts K) (nx : Nat) (s : Stage K) (old : DStage K) (w : Work K) (h : StageOk nx 0 s) :
    Matches o.inf nx 0 True s (updateLast o nx s old w).1 ∧
    ∀ i < 0 + nx, ∀ j < 0 + nx, (updateLast o nx s old w).2.2 i j = s.H i j := by
  obtain ⟨b1, b2⟩ := formBounds_spec o.inf nx 0 s.nb s.ng s.idxb s.d w.zLow w.zUpp h.idxb h.inj
  obtain ⟨i1, i2, i3⟩ := formIneq_spec nx 0 s.nb s.ng s.DCt s.d w.Ct w.lc w.uc
  have h3 := (formRSQ_spec nx 0 s.H h.sym w.R w.S w.Q).2.2.2
  by_cases hng : s.ng = 0
  · unfold updateLast
    simp only
    rw [if_pos hng]
    exact ⟨⟨last_pieces nx s.H h.sym w.R w.S w.Q, formG_spec nx 0 s.g w.g, fun h => absurd trivial h, fun h => absurd trivial h, bndj h.idxb b1, b2,
      fun i hi => by omega, fun i hi => by omega, fun i hi => by omega⟩, h3⟩
  · unfold updateLast
    simp only
    rw [if_neg hng]
    exact ⟨⟨last_pieces nx s.H h.sym w.R w.S w.Q, formG_spec nx 0 s.g w.g, fun h => absurd trivial h, fun h => absurd trivial h, bndj h.idxb b1, b2,
      i1, i2, i3⟩, h3⟩

/-! ### The loop over the intervals -/

theorem SameQp.refl (q : Qp K) : SameQp q q := ⟨rfl, rfl, rfl, fun _ _ _ _ _ _ => rfl, fun _ => rfl⟩

theorem intervals_snoc (rv : Nat → Int) (body : Nat → DMem K × Work K × Qp K → DMem K × Work K × Qp K) (ks : List Nat) (k : Nat)
    (a a2 : DMem K × Work K × Qp K) (h : intervals rv body (ks ++ [k]) a = .ok a2) :
    ∃ a1, intervals rv body ks a = .ok a1 ∧ a2 = body k a1 ∧ rv k = 0 := by
  unfold intervals at h ⊢
  rw [List.foldl_append] at h
  simp only [List.foldl_cons, List.foldl_nil] at h
  generalize List.foldl _ (Upd.ok a) ks = r at h ⊢
  cases r with
  | ok a1 =>
    simp only at h
    by_cases hr : rv k = 0
    · rw [if_pos hr] at h
      simp only [Upd.ok.injEq] at h
      exact ⟨a1, rfl, h.symm, hr⟩
    · rw [if_neg hr] at h; cases h
  | code c a1 => simp only at h; cases h
  | ub => simp only at h; cases h

/-- a loop in which interval `k` is stored from stage `k` of the QP -/
theorem intervals_hold (inf : K) (q : Qp K) (rv : Nat → Int) (body : Nat → DMem K × Work K × Qp K → DMem K × Work K × Qp K)
    (hb : ∀ k ≤ q.N, ∀ a : DMem K × Work K × Qp K, a.2.2.N = q.N → a.2.2.st k = q.st k → ∃ r, body k a = storeStage k r a ∧
      Matches inf (q.nx 0) (q.nu k) (k = q.N) (q.st k) r.1 ∧
      ∀ i < q.nu k + q.nx k, ∀ j < q.nu k + q.nx k, r.2.2 i j = (q.st k).H i j)
    (a0 a1 : DMem K × Work K × Qp K) (hq : a0.2.2 = q) (n : Nat) (hn : n ≤ q.N + 1)
    (h : intervals rv body (List.range n) a0 = .ok a1) :
    (∀ k < n, Matches inf (q.nx 0) (q.nu k) (k = q.N) (q.st k) (a1.1.st k)) ∧ (∀ k, n ≤ k → a1.2.2.st k = q.st k) ∧ SameQp q a1.2.2 ∧
    a1.1.firstRun = a0.1.firstRun ∧ a1.1.status = a0.1.status ∧ (∀ k < n, rv k = 0) := by
  induction n generalizing a1 with
  | zero =>
    simp only [intervals, List.range_zero, List.foldl_nil, Upd.ok.injEq] at h
    subst h hq
    exact ⟨fun k h => by omega, fun _ _ => rfl, SameQp.refl _, rfl, rfl, fun k h => by omega⟩
  | succ n ih =>
    rw [List.range_succ] at h
    obtain ⟨a, e1, rfl, hr⟩ := intervals_snoc rv body _ n a0 a1 h
    obtain ⟨i1, i2, i3, i4, i5, i6⟩ := ih a (by omega) e1
    obtain ⟨r, er, hm, hH⟩ := hb n (by omega) a i3.N (i2 n (le_refl _))
    rw [er]
    refine ⟨fun k hk => ?_, fun k hk => ?_, ⟨i3.N, i3.nx, i3.nu, fun k hk => ?_, fun k => ?_⟩, i4, i5, fun k hk => ?_⟩
    · simp only [storeStage]
      by_cases e : k = n
      · subst e; rw [Function.update_self]; exact hm
      · rw [Function.update_of_ne e]; exact i1 k (by omega)
    · simp only [storeStage]
      rw [Function.update_of_ne (by omega)]; exact i2 k (by omega)
    · simp only [storeStage]
      by_cases e : k = n
      · subst e; rw [Function.update_self]; exact hH
      · rw [Function.update_of_ne e]; exact i3.H k hk
    · simp only [storeStage]
      by_cases e : k = n
      · subst e; rw [Function.update_self, i2 k (le_refl _)]
      · rw [Function.update_of_ne e]; exact i3.rest k
    · by_cases e : k = n
      · subst e; exact hr
      · exact i6 k (by omega)

/-- later calls -/
theorem updateAll_holds (o : DOpts K) (hl : o.linear = false) (rv : Nat → Int) (m : DMem K) (w : Work K) (q : Qp K) (hq : QpOk q)
    (a1 : DMem K × Work K × Qp K) (h : updateAll o rv (m, w, q) = .ok a1) :
    Holds o.inf q a1.1.st ∧ SameQp q a1.2.2 ∧ a1.1.firstRun = m.firstRun ∧ a1.1.status = m.status := by
  unfold updateAll at h
  simp only at h
  rw [hl, if_pos (by rfl)] at h
  obtain ⟨h1, -, h3, h4, h5, -⟩ := intervals_hold o.inf q rv _ (fun k hk a hN hst => by
    by_cases e : k < q.N
    · refine ⟨_, by simp only [hN]; rw [if_pos e], ?_⟩
      have hs := hq.st k hk
      rw [hq.nx k hk] at hs ⊢
      rw [hst, ← hq.nu k e]
      obtain ⟨m1, m2⟩ := updateStage_matches o (q.nx 0) (q.nu k) (q.st k) (a.1.st k) a.2.1 hs
      exact ⟨by rw [show (k = q.N) = False from eq_false (by omega)]; exact m1, m2⟩
    · refine ⟨_, by simp only [hN]; rw [if_neg e], ?_⟩
      have ek : k = q.N := by omega
      have hs := hq.st k hk
      rw [ek, hq.nuN, hq.nx q.N (le_refl _)] at hs
      rw [hst, ek, hq.nuN, hq.nx q.N (le_refl _)]
      obtain ⟨m1, m2⟩ := updateLast_matches o (q.nx 0) (q.st q.N) (a.1.st q.N) a.2.1 hs
      exact ⟨by rw [show (q.N = q.N) = True from eq_true rfl]; exact m1, m2⟩) (m, w, q) a1 rfl (q.N + 1) (le_refl _) h
  exact ⟨fun k hk => h1 k (by omega), h3, h4, h5⟩

/-- the first call: qpDUNES holds the QP that the loop works on -/
theorem setupLoop_holds (o : DOpts K) (rv : Nat → Int) (m : DMem K) (w : Work K) (q : Qp K) (hq : QpOk q)
    (hc : o.clip = true → ∀ k < q.N, (q.st k).ng = 0 ∧ ∀ i < q.nx 0, ∀ j < q.nu 0, (q.st k).H (q.nu 0 + i) j = 0)
    (a1 : DMem K × Work K × Qp K)
    (h : intervals rv (fun k a =>
        if k < q.N then storeStage k (setupStage o (q.nx 0) (q.nu 0) (a.2.2.st k) a.2.1) a
        else if k = q.N then storeStage k (setupLast o (q.nx 0) (a.2.2.st k) a.2.1) a
        else a) (List.range (q.N + 2)) (m, w, q) = .ok a1) :
    Holds o.inf q a1.1.st ∧ SameQp q a1.2.2 ∧ a1.1.firstRun = m.firstRun ∧ a1.1.status = m.status := by
  rw [List.range_succ] at h
  obtain ⟨a, e1, rfl, -⟩ := intervals_snoc rv _ _ _ _ a1 h
  rw [if_neg (by omega), if_neg (by omega)]
  obtain ⟨h1, -, h3, h4, h5, -⟩ := intervals_hold o.inf q rv _ (fun k hk a hN hst => by
    by_cases e : k < q.N
    · refine ⟨_, by rw [if_pos e], ?_⟩
      have hs := hq.st k hk
      rw [hq.nx k hk] at hs ⊢
      rw [hst, ← hq.nu k e]
      obtain ⟨m1, m2⟩ := setupStage_matches o (q.nx 0) (q.nu k) (q.st k) a.2.1 hs (fun hcl => by rw [hq.nu k e]; exact hc hcl k e)
      exact ⟨by rw [show (k = q.N) = False from eq_false (by omega)]; exact m1, m2⟩
    · have ek : k = q.N := by omega
      refine ⟨_, by rw [if_neg e, if_pos ek], ?_⟩
      have hs := hq.st k hk
      rw [ek, hq.nuN, hq.nx q.N (le_refl _)] at hs
      rw [hst, ek, hq.nuN, hq.nx q.N (le_refl _)]
      obtain ⟨m1, m2⟩ := setupLast_matches o (q.nx 0) (q.st q.N) a.2.1 hs
      exact ⟨by rw [show (q.N = q.N) = True from eq_true rfl]; exact m1, m2⟩) (m, w, q) a rfl (q.N + 1) (le_refl _) e1
  exact ⟨fun k hk => h1 k (by omega), h3, h4, h5⟩

theorem needs_false (q : Qp K) (h : needsQpoases q = false) :
    ∀ k < q.N, (q.st k).ng = 0 ∧ ∀ i < q.nx 0, ∀ j < q.nu 0, (q.st k).H (q.nu 0 + i) j = 0 := by
  unfold needsQpoases at h
  simp only [Bool.or_eq_false_iff, List.any_eq_false, List.mem_range, decide_eq_true_eq, Decidable.not_not,
    Bool.and_eq_true, not_and, ne_eq, Bool.not_eq_true] at h
  obtain ⟨⟨⟨h1, h2⟩, -⟩, -⟩ := h
  intro k hk
  refine ⟨h1 k (by omega), fun i hi j hj => ?_⟩
  have := h2 k hk i hi j hj
  simpa [Nat.add_comm] using this

end Acados.Dunes
