import Verif.Model.Erk
import Verif.Lemmas.Rk
import Mathlib.Algebra.Module.Pi
import Mathlib.Tactic.Ring
import Mathlib.Tactic.LinearCombination
/-!
# The arrays of the explicit Runge-Kutta integrator refine `Rk.step`
-/
namespace Acados.Erk
set_option linter.unusedSectionVars false
open Finset
variable {K : Type*} [Field K] [DecidableEq K]

omit [Field K] [DecidableEq K] in
theorem wr_in (a : Nat → K) (off len : Nat) (v : Nat → K) (i : Nat) (hi : i < len) :
    wr a off len v (off + i) = v i := by
  unfold wr
  rw [if_pos ⟨by omega, by omega⟩]
  congr 1; omega

omit [Field K] [DecidableEq K] in
theorem wr_in0 (a : Nat → K) (len : Nat) (v : Nat → K) (i : Nat) (hi : i < len) :
    wr a 0 len v i = v i := by
  simpa using wr_in a 0 len v i hi

omit [Field K] [DecidableEq K] in
theorem wr_out (a : Nat → K) (off len : Nat) (v : Nat → K) (q : Nat) (hq : q < off ∨ off + len ≤ q) :
    wr a off len v q = a q := by
  unfold wr
  rw [if_neg (by omega)]

/-- a loop of masked accumulations into a window -/
theorem accLoop (off len : Nat) (js : List Nat) (m : Nat → K) (val : Nat → Nat → K) (R : Nat → K) :
    let R' := js.foldl (fun R j => if m j ≠ 0 then wr R off len (fun i => R (off + i) + val j i) else R) R
    (∀ i < len, (∀ j ∈ js, m j = 0 → val j i = 0) → R' (off + i) = R (off + i) + (js.map fun j => val j i).sum) ∧
      ∀ q, (q < off ∨ off + len ≤ q) → R' q = R q := by
  induction js generalizing R with
  | nil => simp
  | cons j js ih =>
    simp only [List.foldl_cons, List.map_cons, List.sum_cons]
    obtain ⟨h1, h2⟩ := ih (if m j ≠ 0 then wr R off len (fun i => R (off + i) + val j i) else R)
    refine ⟨fun i hi hz => ?_, fun q hq => ?_⟩
    · rw [h1 i hi (fun j' hj' => hz j' (List.mem_cons_of_mem _ hj'))]
      by_cases hm : m j = 0
      · rw [if_neg (by simpa using hm), hz j List.mem_cons_self hm]; ring
      · rw [if_pos hm, wr_in _ _ _ _ _ hi]; ring
    · rw [h2 q hq]
      split
      · exact wr_out _ _ _ _ _ hq
      · rfl

/-- unmasked version -/
theorem accLoop' (off len : Nat) (js : List Nat) (val : Nat → Nat → K) (R : Nat → K) :
    let R' := js.foldl (fun R j => wr R off len (fun i => R (off + i) + val j i)) R
    (∀ i < len, R' (off + i) = R (off + i) + (js.map fun j => val j i).sum) ∧
      ∀ q, (q < off ∨ off + len ≤ q) → R' q = R q := by
  have h := accLoop off len js (fun _ => (1 : K)) val R
  simp only [ne_eq, one_ne_zero, not_false_eq_true, if_true, false_imp_iff, implies_true, forall_true_left] at h
  exact h

theorem sum_map_range (n : Nat) (f : Nat → K) : ((List.range n).map f).sum = ∑ j ∈ range n, f j := by
  induction n with
  | zero => simp
  | succ n ih => rw [List.range_succ, List.map_append, List.sum_append, ih, sum_range_succ]; simp

theorem sum_map_range' (s n : Nat) (f : Nat → K) :
    ((List.range' s n).map f).sum = ∑ j ∈ Ico s (s + n), f j := by
  induction n with
  | zero => simp
  | succ n ih =>
    rw [List.range'_concat, List.map_append, List.sum_append, ih, ← Nat.add_assoc, sum_Ico_succ_top (by omega)]
    simp

/-- Butcher matrix by row and column -/
def Cfg.a (c : Cfg K) (s j : Nat) : K := c.A (j * c.ns + s)

/-- the window of an array -/
def view (a : Nat → K) (off n : Nat) : Fin n → K := fun i => a (off + i)

theorem stageIn_in (c : Cfg K) (ko tq s : Nat) (w : Fw K) (i : Nat) (hi : i < c.nX) :
    stageIn c ko tq s w i = w.T (tq + i) + ∑ j ∈ range s, c.step * c.a s j * w.Kt (ko + j * c.nX + i) := by
  have h := (accLoop 0 c.nX (List.range s) (fun j => c.A (j * c.ns + s))
    (fun j i => c.A (j * c.ns + s) * c.step * w.Kt (ko + j * c.nX + i))
    (wr w.R 0 c.nX (fun i => w.T (tq + i)))).1 i hi (fun j _ h => by rw [h]; ring)
  simp only [Nat.zero_add] at h
  unfold stageIn
  rw [h, wr_in0 _ _ _ _ hi, sum_map_range]
  congr 1
  exact sum_congr rfl fun j _ => by unfold Cfg.a; ring

theorem stageIn_out (c : Cfg K) (ko tq s : Nat) (w : Fw K) (q : Nat) (hq : c.nX ≤ q) :
    stageIn c ko tq s w q = w.R q := by
  have h := (accLoop 0 c.nX (List.range s) (fun j => c.A (j * c.ns + s))
    (fun j i => c.A (j * c.ns + s) * c.step * w.Kt (ko + j * c.nX + i))
    (wr w.R 0 c.nX (fun i => w.T (tq + i)))).2 q (Or.inr (by omega))
  simp only [Nat.zero_add] at h
  unfold stageIn
  rw [h, wr_out _ _ _ _ _ (Or.inr (by omega))]

/-- gluing the augmented state and the controls into an input array -/
def glue (n : Nat) {m : Nat} (y : Fin n → K) (u : Fin m → K) : Nat → K := fun i =>
  if h : i < n then y ⟨i, h⟩ else if h : i - n < m then u ⟨i - n, h⟩ else 0

/-- the augmented system on windows -/
def aug (c : Cfg K) (o : Ode K c.nx c.nu c.np) (p : Fin c.np → K) (u : Fin c.nu → K) :
    (Fin c.nX → K) → (Fin c.nX → K) := fun y i => rhsFwd c o p (glue c.nX y u) i

theorem nx_le (c : Cfg K) : c.nx ≤ c.nX := by
  unfold Cfg.nX
  exact Nat.le_mul_of_pos_right _ (by omega)

theorem nX_eq (c : Cfg K) : c.nX = c.nx + (c.nf + c.nfp) * c.nx := by
  unfold Cfg.nX; ring

theorem rhsFwd_congr (c : Cfg K) (o : Ode K c.nx c.nu c.np) (p : Fin c.np → K) (R R' : Nat → K)
    (h : ∀ q < c.nX + c.nu, R q = R' q) (i : Nat) (hi : i < c.nX) :
    rhsFwd c o p R i = rhsFwd c o p R' i := by
  have hn := nx_le c
  have hx : (fun k : Fin c.nx => R k) = fun k : Fin c.nx => R' k := by
    funext k; exact h _ (by have := k.2; omega)
  have hu : (fun k : Fin c.nu => R (c.nX + k)) = fun k : Fin c.nu => R' (c.nX + k) := by
    funext k; exact h _ (by have := k.2; omega)
  unfold rhsFwd
  simp only [hx, hu]
  split
  · rfl
  · rename_i hi'
    congr 1
    refine sum_congr rfl fun k hk => ?_
    rw [h]
    have hk' := mem_range.1 hk
    have h1 : (i - c.nx) / c.nx < c.nf + c.nfp := by
      rw [Nat.div_lt_iff_lt_mul (by omega)]
      have := nX_eq c; omega
    have h2 : ((i - c.nx) / c.nx + 1) * c.nx ≤ (c.nf + c.nfp) * c.nx := Nat.mul_le_mul_right _ h1
    have := nX_eq c
    rw [Nat.add_mul] at h2
    omega

/-- the stage loop computes the Runge-Kutta stages of the augmented system -/
theorem stageLoop (c : Cfg K) (o : Ode K c.nx c.nu c.np) (p : Fin c.np → K) (u : Fin c.nu → K)
    (ko tq : Nat) (w : Fw K) (hu : ∀ k : Fin c.nu, w.R (c.nX + k) = u k) (m : Nat) :
    let w' := (List.range m).foldl (stage (rhsFwd c o p) c ko tq) w
    w'.T = w.T ∧ (∀ k : Fin c.nu, w'.R (c.nX + k) = u k) ∧
      (∀ j < m, view w'.Kt (ko + j * c.nX) c.nX = Rk.stages (aug c o p u) c.a c.step (view w.T tq c.nX) m j) ∧
      ∀ q < ko, w'.Kt q = w.Kt q := by
  induction m with
  | zero => exact ⟨rfl, hu, fun j hj => absurd hj (by omega), fun _ _ => rfl⟩
  | succ m ih =>
    obtain ⟨hT, hR, hK, hP⟩ := ih
    simp only [List.range_succ, List.foldl_append, List.foldl_cons, List.foldl_nil]
    generalize hw : (List.range m).foldl (stage (rhsFwd c o p) c ko tq) w = w1 at hT hR hK hP ⊢
    have hs : stage (rhsFwd c o p) c ko tq w1 m = { w1 with
        R := stageIn c ko tq m w1
        Kt := wr w1.Kt (ko + m * c.nX) c.nX (rhsFwd c o p (stageIn c ko tq m w1)) } := rfl
    rw [hs]
    refine ⟨hT, fun k => ?_, fun j hj => ?_, fun q hq => ?_⟩
    · rw [← hR k]; exact stageIn_out c ko tq m w1 _ (by omega)
    · rcases Nat.lt_succ_iff_lt_or_eq.1 hj with hlt | heq
      · rw [Rk.stages_stable _ _ _ _ m (m + 1) j hlt (by omega), ← hK j hlt]
        funext i
        refine wr_out _ _ _ _ _ (Or.inl ?_)
        have h1 : (j + 1) * c.nX ≤ m * c.nX := Nat.mul_le_mul_right _ hlt
        have := i.2
        rw [Nat.add_mul] at h1
        omega
      · subst heq
        rw [Rk.stages, Function.update_self]
        funext i
        have e : view (wr w1.Kt (ko + j * c.nX) c.nX (rhsFwd c o p (stageIn c ko tq j w1))) (ko + j * c.nX) c.nX i
            = rhsFwd c o p (stageIn c ko tq j w1) i := wr_in _ _ _ _ _ i.2
        rw [e]
        refine rhsFwd_congr c o p _ _ (fun q hq => ?_) i i.2
        unfold glue
        split
        · rename_i hq'
          rw [stageIn_in c ko tq j w1 q hq']
          unfold Rk.stagePoint
          simp only [Pi.add_apply, Finset.sum_apply, Pi.smul_apply, smul_eq_mul]
          rw [hT]
          congr 1
          refine sum_congr rfl fun j' hj' => ?_
          rw [← hK j' (mem_range.1 hj')]
          rfl
        · rename_i hq'
          rw [stageIn_out c ko tq j w1 q (by omega), dif_pos (by omega), ← hR]
          congr 1
          simp only
          omega
    · rw [← hP q hq]
      exact wr_out _ _ _ _ _ (Or.inl (by omega))

theorem update_spec (c : Cfg K) (ko tq : Nat) (w : Fw K) :
    (∀ i < c.nX, (update c ko tq w).T (tq + i)
      = w.T (tq + i) + ∑ s ∈ range c.ns, c.step * c.b s * w.Kt (ko + s * c.nX + i)) ∧
    (∀ q, (q < tq ∨ tq + c.nX ≤ q) → (update c ko tq w).T q = w.T q) := by
  have h := accLoop' tq c.nX (List.range c.ns) (fun s i => c.step * c.b s * w.Kt (ko + s * c.nX + i)) w.T
  refine ⟨fun i hi => ?_, h.2⟩
  rw [← sum_map_range]
  exact h.1 i hi

/-- offset of the state at the beginning of step `istep` -/
def boff (c : Cfg K) (istep : Nat) : Nat := if c.traj then istep * c.nX else 0

theorem fstep_spec (c : Cfg K) (o : Ode K c.nx c.nu c.np) (p : Fin c.np → K) (u : Fin c.nu → K) (t : Nat)
    (w : Fw K) (hu : ∀ k : Fin c.nu, w.R (c.nX + k) = u k) :
    let w' := fstep (rhsFwd c o p) c w t
    let z := view w.T (boff c t) c.nX
    view w'.T (toff c t) c.nX = Rk.step (aug c o p u) c.ns c.a c.b c.step z ∧
      (∀ k : Fin c.nu, w'.R (c.nX + k) = u k) ∧
      (∀ j < c.ns, view w'.Kt (koff c t + j * c.nX) c.nX = Rk.stages (aug c o p u) c.a c.step z c.ns j) ∧
      (∀ q < koff c t, w'.Kt q = w.Kt q) ∧ ∀ q < toff c t, w'.T q = w.T q := by
  intro w' z
  have hw1 : ∃ w1 : Fw K, w' = update c (koff c t) (toff c t)
      ((List.range c.ns).foldl (stage (rhsFwd c o p) c (koff c t) (toff c t)) w1) ∧
      view w1.T (toff c t) c.nX = z ∧ w1.R = w.R ∧ w1.Kt = w.Kt ∧ ∀ q < toff c t, w1.T q = w.T q := by
    refine ⟨if c.traj then { w with T := wr w.T (toff c t) c.nX (fun i => w.T (toff c t + i - c.nX)) } else w,
      rfl, ?_⟩
    by_cases h : c.traj
    · rw [if_pos h]
      refine ⟨?_, rfl, rfl, fun q hq =>
        wr_out w.T (toff c t) c.nX (fun i => w.T (toff c t + i - c.nX)) q (Or.inl hq)⟩
      funext i
      have e : view (wr w.T (toff c t) c.nX (fun i => w.T (toff c t + i - c.nX))) (toff c t) c.nX i
          = w.T (toff c t + i - c.nX) := wr_in _ _ _ _ _ i.2
      simp only [z, view] at e ⊢
      rw [e]
      congr 1
      unfold toff boff
      rw [if_pos h, if_pos h, Nat.add_mul]
      omega
    · rw [if_neg h]
      refine ⟨?_, rfl, rfl, fun _ _ => rfl⟩
      unfold toff z boff
      rw [if_neg h, if_neg h]
  obtain ⟨w1, hw', hz, hR, hKt, hq1⟩ := hw1
  have hS := stageLoop c o p u (koff c t) (toff c t) w1 (by rw [hR]; exact hu) c.ns
  simp only at hS
  rw [hz] at hS
  generalize (List.range c.ns).foldl (stage (rhsFwd c o p) c (koff c t) (toff c t)) w1 = w2 at hS hw'
  obtain ⟨hT, hR2, hK, hP⟩ := hS
  obtain ⟨hU1, hU2⟩ := update_spec c (koff c t) (toff c t) w2
  rw [hw']
  refine ⟨?_, hR2, hK, ?_, fun q hq => ?_⟩
  · funext i
    refine (hU1 i i.2).trans ?_
    unfold Rk.step
    simp only [Pi.add_apply, Finset.sum_apply, Pi.smul_apply, smul_eq_mul]
    rw [hT, ← hz]
    refine congrArg₂ _ rfl (sum_congr rfl fun s hs => ?_)
    rw [hz, ← hK s (mem_range.1 hs)]
    rfl
  · intro q hq; rw [← hKt]; exact hP q hq
  · rw [hU2 q (Or.inl hq), hT, hq1 q hq]

/-- the step loop iterates the Runge-Kutta step of the augmented system and keeps the trajectory -/
theorem stepLoop (c : Cfg K) (o : Ode K c.nx c.nu c.np) (p : Fin c.np → K) (u : Fin c.nu → K)
    (w : Fw K) (hu : ∀ k : Fin c.nu, w.R (c.nX + k) = u k) (N : Nat) :
    let w' := (List.range N).foldl (fstep (rhsFwd c o p) c) w
    let Φ := Rk.step (aug c o p u) c.ns c.a c.b c.step
    let z := view w.T 0 c.nX
    (∀ k : Fin c.nu, w'.R (c.nX + k) = u k) ∧ view w'.T (boff c N) c.nX = Φ^[N] z ∧
      (c.traj = true → (∀ t ≤ N, view w'.T (t * c.nX) c.nX = Φ^[t] z) ∧
        ∀ t < N, ∀ j < c.ns, view w'.Kt (t * c.ns * c.nX + j * c.nX) c.nX
          = Rk.stages (aug c o p u) c.a c.step (Φ^[t] z) c.ns j) := by
  intro w' Φ z
  induction N with
  | zero =>
    have hb : boff c 0 = 0 := by unfold boff; split <;> omega
    refine ⟨hu, ?_, fun _ => ⟨fun t ht => ?_, fun t ht => absurd ht (by omega)⟩⟩
    · rw [hb]; rfl
    · obtain rfl : t = 0 := by omega
      rw [Nat.zero_mul]; rfl
  | succ N ih =>
    obtain ⟨hR, hz, htr⟩ := ih
    have hw : w' = fstep (rhsFwd c o p) c ((List.range N).foldl (fstep (rhsFwd c o p) c) w) N := by
      simp only [w', List.range_succ, List.foldl_append, List.foldl_cons, List.foldl_nil]
    generalize (List.range N).foldl (fstep (rhsFwd c o p) c) w = w1 at hR hz htr hw
    obtain ⟨hT, hR2, hK, hPK, hPT⟩ := fstep_spec c o p u N w1 hR
    rw [← hw] at hT hR2 hK hPK hPT
    rw [hz] at hT hK
    have hb : boff c (N + 1) = toff c N := rfl
    have hlast : view w'.T (boff c (N + 1)) c.nX = Φ^[N + 1] z := by
      rw [hb, hT, Function.iterate_succ_apply']
    refine ⟨hR2, hlast, fun htj => ?_⟩
    obtain ⟨htr1, htr2⟩ := htr htj
    have eT : toff c N = (N + 1) * c.nX := by unfold toff; rw [if_pos htj]
    have eK : koff c N = N * c.ns * c.nX := by unfold koff; rw [if_pos htj]
    refine ⟨fun t ht => ?_, fun t ht j hj => ?_⟩
    · rcases Nat.lt_or_ge N t with hlt | hge
      · obtain rfl : t = N + 1 := by omega
        rw [← hlast, hb, eT]
      · rw [← htr1 t hge]
        funext i
        refine hPT _ ?_
        rw [eT]
        have h1 : t * c.nX ≤ N * c.nX := Nat.mul_le_mul_right _ hge
        have := i.2
        rw [Nat.add_mul]; omega
    · rcases Nat.lt_or_ge t N with hlt | hge
      · rw [← htr2 t hlt j hj]
        funext i
        refine hPK _ ?_
        rw [eK]
        have h1 : (t + 1) * (c.ns * c.nX) ≤ N * (c.ns * c.nX) := Nat.mul_le_mul_right _ hlt
        have h2 : (j + 1) * c.nX ≤ c.ns * c.nX := Nat.mul_le_mul_right _ hj
        have := i.2
        rw [Nat.add_mul] at h1 h2
        rw [Nat.mul_assoc, Nat.mul_assoc]
        omega
      · obtain rfl : t = N := by omega
        rw [← hK j hj, eK]

/-! ### the augmented system and the tangent system -/

/-- state, control and parameters -/
abbrev Pt (K : Type*) (nx nu np : Nat) := (Fin nx → K) × (Fin nu → K) × (Fin np → K)

variable {nx nu np : Nat}

/-- the system with constant controls and parameters appended -/
def hat (o : Ode K nx nu np) : Pt K nx nu np → Pt K nx nu np := fun z => (fun i => o.f z.1 z.2.1 z.2.2 i, 0, 0)

/-- product of the Jacobian with a direction -/
def jac (o : Ode K nx nu np) (z d : Pt K nx nu np) : Fin nx → K := fun i =>
  (∑ k : Fin nx, o.fx z.1 z.2.1 z.2.2 i k * d.1 k) + (∑ k : Fin nu, o.fu z.1 z.2.1 z.2.2 i k * d.2.1 k)
    + ∑ k : Fin np, o.fp z.1 z.2.1 z.2.2 i k * d.2.2 k

def tan (o : Ode K nx nu np) : Pt K nx nu np × Pt K nx nu np → Pt K nx nu np × Pt K nx nu np :=
  fun q => (hat o q.1, (jac o q.1 q.2, 0, 0))

theorem glue_lt (n : Nat) {m : Nat} (y : Fin n → K) (u : Fin m → K) (i : Nat) (h : i < n) :
    glue n y u i = y ⟨i, h⟩ := by
  unfold glue; rw [dif_pos h]

theorem glue_u (n : Nat) {m : Nat} (y : Fin n → K) (u : Fin m → K) (k : Fin m) :
    glue n y u (n + k) = u k := by
  unfold glue
  rw [dif_neg (by omega), dif_pos (by have := k.2; omega)]
  congr 1
  ext
  simp

/-- `x`-part of the augmented state -/
def xPart (c : Cfg K) (z : Fin c.nX → K) : Fin c.nx → K := fun k => z ⟨k, by have := nx_le c; have := k.2; omega⟩

theorem col_lt (c : Cfg K) (col : Nat) (hc : col < c.nf + c.nfp) (k : Fin c.nx) :
    c.nx + col * c.nx + k < c.nX := by
  have h1 : (col + 1) * c.nx ≤ (c.nf + c.nfp) * c.nx := Nat.mul_le_mul_right _ hc
  have := nX_eq c
  have := k.2
  rw [Nat.add_mul] at h1
  omega

/-- sensitivity column of the augmented state -/
def colPart (c : Cfg K) (col : Nat) (hc : col < c.nf + c.nfp) (z : Fin c.nX → K) : Fin c.nx → K :=
  fun k => z ⟨c.nx + col * c.nx + k, col_lt c col hc k⟩

theorem aug_x (c : Cfg K) (o : Ode K c.nx c.nu c.np) (p : Fin c.np → K) (u : Fin c.nu → K)
    (z : Fin c.nX → K) : xPart c (aug c o p u z) = fun k : Fin c.nx => o.f (xPart c z) u p k := by
  funext k
  have hn := nx_le c
  have hx : (fun k : Fin c.nx => glue c.nX z u k) = xPart c z := by
    funext k; exact glue_lt _ _ _ _ _
  have hu : (fun k : Fin c.nu => glue c.nX z u (c.nX + k)) = u := by
    funext k; exact glue_u _ _ _ _
  simp only [xPart, aug, rhsFwd, k.2, if_true]
  rw [← hx, hu]

theorem aug_col (c : Cfg K) (o : Ode K c.nx c.nu c.np) (p : Fin c.np → K) (u : Fin c.nu → K)
    (z : Fin c.nX → K) (col : Nat) (hc : col < c.nf + c.nfp) :
    colPart c col hc (aug c o p u z) = jac o (xPart c z, u, p)
      (colPart c col hc z, (fun k => if c.nx + k = col then 1 else 0),
        (fun k => if c.nx + c.nu + k = col then 1 else 0)) := by
  funext k
  have hn := nx_le c
  have hx : (fun k : Fin c.nx => glue c.nX z u k) = xPart c z := by
    funext k; exact glue_lt _ _ _ _ _
  have hu : (fun k : Fin c.nu => glue c.nX z u (c.nX + k)) = u := by
    funext k; exact glue_u _ _ _ _
  have hk := k.2
  have hnf : col < c.nx + c.nu + c.np := by
    unfold Cfg.nf Cfg.nfp at hc
    split at hc <;> split at hc <;> omega
  have e1 : (c.nx + col * c.nx + k - c.nx) / c.nx = col := by
    rw [show c.nx + col * c.nx + (k : Nat) - c.nx = k + c.nx * col by rw [Nat.mul_comm]; omega,
      Nat.add_mul_div_left _ _ (by omega), Nat.div_eq_of_lt hk, Nat.zero_add]
  have e2 : (c.nx + col * c.nx + k - c.nx) % c.nx = k := by
    rw [show c.nx + col * c.nx + (k : Nat) - c.nx = k + c.nx * col by rw [Nat.mul_comm]; omega,
      Nat.add_mul_mod_self_left, Nat.mod_eq_of_lt hk]
  simp only [colPart, aug, rhsFwd, jac]
  rw [if_neg (by omega), e1, e2, hx, hu]
  have hs : ∑ k' ∈ range c.nx, o.fx (xPart c z) u p k k' * glue c.nX z u (c.nx + col * c.nx + k')
      = ∑ k' : Fin c.nx, o.fx (xPart c z) u p k k' * z ⟨c.nx + col * c.nx + k', col_lt c col hc k'⟩ := by
    rw [← Fin.sum_univ_eq_sum_range
      (fun k' => o.fx (xPart c z) u p k k' * glue c.nX z u (c.nx + col * c.nx + k'))]
    exact sum_congr rfl fun k' _ => by rw [glue_lt _ _ _ _ (col_lt c col hc k')]
  rw [hs, add_assoc]
  congr 1
  simp only [mul_ite, mul_one, mul_zero]
  by_cases h1 : col < c.nx
  · rw [if_pos h1, sum_eq_zero, sum_eq_zero, add_zero]
    · intro j _; rw [if_neg (by omega)]
    · intro j _; rw [if_neg (by omega)]
  · rw [if_neg h1]
    by_cases h2 : col < c.nx + c.nu
    · rw [if_pos h2, sum_eq_single (⟨col - c.nx, by omega⟩ : Fin c.nu), sum_eq_zero, add_zero]
      · rw [if_pos]; simp only; omega
      · intro j _; rw [if_neg (by omega)]
      · intro j _ hj
        rw [if_neg]
        intro h; apply hj; ext; simp only; omega
      · intro h; exact absurd (mem_univ _) h
    · rw [if_neg h2, sum_eq_zero, sum_eq_single (⟨col - (c.nx + c.nu), by omega⟩ : Fin c.np), zero_add]
      · rw [if_pos]; simp only; omega
      · intro j _ hj
        rw [if_neg]
        intro h; apply hj; ext; simp only; omega
      · intro h; exact absurd (mem_univ _) h
      · intro j _; rw [if_neg (by have := j.2; omega)]

/-- linear part of the embedding of the state -/
def xLin (c : Cfg K) : (Fin c.nX → K) →ₗ[K] Pt K c.nx c.nu c.np where
  toFun z := (xPart c z, 0, 0)
  map_add' a b := by ext <;> simp [xPart]
  map_smul' a b := by ext <;> simp [xPart]

theorem x_iterate (c : Cfg K) (o : Ode K c.nx c.nu c.np) (p : Fin c.np → K) (u : Fin c.nu → K)
    (N : Nat) (z : Fin c.nX → K) :
    ((xPart c ((Rk.step (aug c o p u) c.ns c.a c.b c.step)^[N] z), u, p) : Pt K c.nx c.nu c.np)
      = (Rk.step (hat o) c.ns c.a c.b c.step)^[N] (xPart c z, u, p) :=
  Rk.iterate_affine (aug c o p u) (hat o) (fun z => (xPart c z, u, p)) (xLin c)
    (fun y d => by ext <;> simp [xPart, xLin])
    (fun y => by
      change (xPart c (aug c o p u y), 0, 0) = _
      rw [aug_x]; rfl) c.ns c.a c.b c.step N z

theorem x_stages (c : Cfg K) (o : Ode K c.nx c.nu c.np) (p : Fin c.np → K) (u : Fin c.nu → K)
    (z : Fin c.nX → K) (n s : Nat) (hs : s < n) :
    xPart c (Rk.stages (aug c o p u) c.a c.step z n s)
      = (Rk.stages (hat o) c.a c.step (xPart c z, u, p) n s).1 := by
  have := Rk.stages_affine (aug c o p u) (hat o) (fun z => ((xPart c z, u, p) : Pt K c.nx c.nu c.np)) (xLin c)
    (fun y d => by ext <;> simp [xPart, xLin])
    (fun y => by
      change (xPart c (aug c o p u y), 0, 0) = _
      rw [aug_x]; rfl) c.a c.step z n s hs
  rw [← this]; rfl

/-- linear part of the embedding of the state and one sensitivity column -/
def colLin (c : Cfg K) (col : Nat) (hc : col < c.nf + c.nfp) :
    (Fin c.nX → K) →ₗ[K] Pt K c.nx c.nu c.np × Pt K c.nx c.nu c.np where
  toFun z := ((xPart c z, 0, 0), (colPart c col hc z, 0, 0))
  map_add' a b := by ext <;> simp [xPart, colPart]
  map_smul' a b := by ext <;> simp [xPart, colPart]

theorem col_iterate (c : Cfg K) (o : Ode K c.nx c.nu c.np) (p : Fin c.np → K) (u : Fin c.nu → K)
    (col : Nat) (hc : col < c.nf + c.nfp) (N : Nat) (z : Fin c.nX → K) :
    colPart c col hc ((Rk.step (aug c o p u) c.ns c.a c.b c.step)^[N] z)
      = ((Rk.step (tan o) c.ns c.a c.b c.step)^[N] ((xPart c z, u, p), (colPart c col hc z,
          (fun k => if c.nx + k = col then 1 else 0), (fun k => if c.nx + c.nu + k = col then 1 else 0)))).2.1 := by
  have := Rk.iterate_affine (aug c o p u) (tan o)
    (fun z => (((xPart c z, u, p), (colPart c col hc z, (fun k => if c.nx + k = col then 1 else 0),
      (fun k => if c.nx + c.nu + k = col then 1 else 0))) : Pt K c.nx c.nu c.np × Pt K c.nx c.nu c.np))
    (colLin c col hc)
    (fun y d => by ext <;> simp [xPart, colPart, colLin])
    (fun y => by
      change ((xPart c (aug c o p u y), 0, 0), (colPart c col hc (aug c o p u y), 0, 0)) = _
      rw [aug_x, aug_col]; rfl) c.ns c.a c.b c.step N z
  rw [← this]

/-- the state trajectory of the tangent system -/
theorem tan_fst_iterate (o : Ode K nx nu np) (ns : Nat) (a : Nat → Nat → K) (b : Nat → K) (h : K) (N : Nat)
    (q : Pt K nx nu np × Pt K nx nu np) :
    ((Rk.step (tan o) ns a b h)^[N] q).1 = (Rk.step (hat o) ns a b h)^[N] q.1 :=
  Rk.iterate_affine (tan o) (hat o) Prod.fst (LinearMap.fst K _ _) (fun _ _ => rfl) (fun _ => rfl) ns a b h N q

theorem tan_fst_stages (o : Ode K nx nu np) (a : Nat → Nat → K) (h : K) (n s : Nat) (hs : s < n)
    (q : Pt K nx nu np × Pt K nx nu np) :
    (Rk.stages (tan o) a h q n s).1 = Rk.stages (hat o) a h q.1 n s :=
  Rk.stages_affine (tan o) (hat o) Prod.fst (LinearMap.fst K _ _) (fun _ _ => rfl) (fun _ => rfl) a h q n s hs

/-- constants of the tangent system stay constant -/
theorem tan_const_stage (o : Ode K nx nu np) (a : Nat → Nat → K) (h : K) (n s : Nat) (hs : s < n)
    (q : Pt K nx nu np × Pt K nx nu np) :
    (Rk.stages (tan o) a h q n s).1.2 = 0 ∧ (Rk.stages (tan o) a h q n s).2.2 = 0 := by
  rw [Rk.stages_eq _ _ _ _ _ _ hs]; exact ⟨rfl, rfl⟩

theorem tan_const_step (o : Ode K nx nu np) (ns : Nat) (a : Nat → Nat → K) (b : Nat → K) (h : K)
    (q : Pt K nx nu np × Pt K nx nu np) :
    (Rk.step (tan o) ns a b h q).1.2 = q.1.2 ∧ (Rk.step (tan o) ns a b h q).2.2 = q.2.2 := by
  unfold Rk.step
  constructor
  · rw [Prod.fst_add, Prod.snd_add, Prod.fst_sum, Prod.snd_sum, sum_eq_zero, add_zero]
    intro s hs
    rw [Prod.smul_fst, Prod.smul_snd, (tan_const_stage o a h ns s (mem_range.1 hs) q).1, smul_zero]
  · rw [Prod.snd_add, Prod.snd_add, Prod.snd_sum, Prod.snd_sum, sum_eq_zero, add_zero]
    intro s hs
    rw [Prod.smul_snd, Prod.smul_snd, (tan_const_stage o a h ns s (mem_range.1 hs) q).2, smul_zero]

theorem tan_const_iterate (o : Ode K nx nu np) (ns : Nat) (a : Nat → Nat → K) (b : Nat → K) (h : K) (N : Nat)
    (q : Pt K nx nu np × Pt K nx nu np) :
    ((Rk.step (tan o) ns a b h)^[N] q).1.2 = q.1.2 ∧ ((Rk.step (tan o) ns a b h)^[N] q).2.2 = q.2.2 := by
  induction N with
  | zero => exact ⟨rfl, rfl⟩
  | succ N ih =>
    rw [Function.iterate_succ_apply']
    exact ⟨(tan_const_step o ns a b h _).1.trans ih.1, (tan_const_step o ns a b h _).2.trans ih.2⟩

/-! ### initial values -/

theorem fwInit_x (c : Cfg K) (x : Fin c.nx → K) (u : Fin c.nu → K) (Sin : Nat → K) (w0 : Fw K) :
    xPart c (view (fwInit c x u Sin w0).T 0 c.nX) = x := by
  funext k
  have h1 : wr w0.T 0 c.nx (fun i => if h : i < c.nx then x ⟨i, h⟩ else 0) k = x k := by
    rw [wr_in0 _ _ _ _ k.2, dif_pos k.2]
  simp only [xPart, view, fwInit, Nat.zero_add]
  have hk := k.2
  split
  · rw [wr_out _ _ _ _ _ (Or.inl (by omega))]
    split
    · rw [wr_out _ _ _ _ _ (Or.inl (by omega)), h1]
    · exact h1
  · split
    · rw [wr_out _ _ _ _ _ (Or.inl (by omega)), h1]
    · exact h1

theorem fwInit_u (c : Cfg K) (x : Fin c.nx → K) (u : Fin c.nu → K) (Sin : Nat → K) (w0 : Fw K) (k : Fin c.nu) :
    (fwInit c x u Sin w0).R (c.nX + k) = u k := by
  unfold fwInit
  simp only
  rw [wr_in _ _ _ _ _ k.2, dif_pos k.2]

theorem fwInit_col (c : Cfg K) (x : Fin c.nx → K) (u : Fin c.nu → K) (Sin : Nat → K) (w0 : Fw K)
    (col : Nat) (hc : col < c.nf + c.nfp) :
    colPart c col hc (view (fwInit c x u Sin w0).T 0 c.nX)
      = fun k : Fin c.nx => if col < c.nf then Sin (col * c.nx + k) else 0 := by
  funext k
  have hk := k.2
  have hsens : (c.sensForw || c.sensP) = true := by
    unfold Cfg.nf Cfg.nfp at hc
    cases h1 : c.sensForw <;> cases h2 : c.sensP <;> simp_all
  simp only [colPart, view, fwInit, Nat.zero_add]
  rw [if_pos hsens]
  by_cases hlt : col < c.nf
  · have h1 : (col + 1) * c.nx ≤ c.nf * c.nx := Nat.mul_le_mul_right _ hlt
    rw [Nat.add_mul, Nat.mul_comm c.nf] at h1
    rw [if_pos hlt]
    have h2 : ∀ a : Nat → K, wr a c.nx (c.nx * c.nf) Sin (c.nx + col * c.nx + k) = Sin (col * c.nx + k) := by
      intro a; rw [Nat.add_assoc]; exact wr_in _ _ _ _ _ (by omega)
    split
    · rw [wr_out _ _ _ _ _ (Or.inl (by omega)), h2]
    · exact h2 _
  · have h1 : c.nf * c.nx ≤ col * c.nx := Nat.mul_le_mul_right _ (by omega)
    have h3 := col_lt c col hc k
    have h4 := nX_eq c
    rw [Nat.add_mul] at h4
    rw [if_neg hlt, if_pos (by omega)]
    have e : c.nx + col * c.nx + (k : Nat) = (c.nx + c.nx * c.nf) + (col * c.nx + k - c.nf * c.nx) := by
      rw [Nat.mul_comm c.nx c.nf]; omega
    rw [e]
    exact wr_in _ _ _ _ _ (by rw [Nat.mul_comm c.nx c.nfp]; omega)

/-! ### the adjoint sweep -/

theorem adjIn_fw (c : Cfg K) (w : Fw K) (nF nA ko tq s : Nat) (q : Aw K) (i : Nat) (hi : i < nF) :
    adjIn c w nF nA ko tq s q i
      = w.T (tq + i) + ∑ j ∈ range s, c.step * c.a s j * w.Kt (ko + j * c.nX + i) := by
  unfold adjIn
  simp only
  rw [(accLoop nF c.nx (List.range' (s + 1) (c.ns - (s + 1))) (fun j => c.A (s * c.ns + j))
    (fun j i => c.A (s * c.ns + j) * c.step * q.traj (j * nA + i)) _).2 i (Or.inl hi),
    wr_out _ _ _ _ _ (Or.inl hi)]
  have h := (accLoop 0 nF (List.range s) (fun j => c.A (j * c.ns + s))
    (fun j i => c.A (j * c.ns + s) * c.step * w.Kt (ko + j * c.nX + i))
    (wr q.R 0 nF (fun i => w.T (tq + i)))).1 i hi (fun j _ h => by rw [h]; ring)
  simp only [Nat.zero_add] at h
  rw [h, wr_in0 _ _ _ _ hi, sum_map_range]
  congr 1
  exact sum_congr rfl fun j _ => by unfold Cfg.a; ring

theorem adjIn_lam (c : Cfg K) (w : Fw K) (nF nA ko tq s : Nat) (hs : s < c.ns) (q : Aw K) (i : Nat)
    (hi : i < c.nx) :
    adjIn c w nF nA ko tq s q (nF + i)
      = c.step * c.b s * q.tmp i + ∑ j ∈ Ico (s + 1) c.ns, c.step * c.a j s * q.traj (j * nA + i) := by
  unfold adjIn
  simp only
  rw [(accLoop nF c.nx (List.range' (s + 1) (c.ns - (s + 1))) (fun j => c.A (s * c.ns + j))
    (fun j i => c.A (s * c.ns + j) * c.step * q.traj (j * nA + i)) _).1 i hi (fun j _ h => by rw [h]; ring),
    wr_in _ _ _ _ _ hi, sum_map_range', show s + 1 + (c.ns - (s + 1)) = c.ns by omega]
  congr 1
  exact sum_congr rfl fun j _ => by unfold Cfg.a; ring

theorem adjIn_u (c : Cfg K) (w : Fw K) (nF nA ko tq s : Nat) (q : Aw K) (i : Nat) (hi : nF + c.nx ≤ i) :
    adjIn c w nF nA ko tq s q i = q.R i := by
  unfold adjIn
  simp only
  rw [(accLoop nF c.nx (List.range' (s + 1) (c.ns - (s + 1))) (fun j => c.A (s * c.ns + j))
    (fun j i => c.A (s * c.ns + j) * c.step * q.traj (j * nA + i)) _).2 i (Or.inr hi),
    wr_out _ _ _ _ _ (Or.inr hi)]
  have h := (accLoop 0 nF (List.range s) (fun j => c.A (j * c.ns + s))
    (fun j i => c.A (j * c.ns + s) * c.step * w.Kt (ko + j * c.nX + i))
    (wr q.R 0 nF (fun i => w.T (tq + i)))).2 i (Or.inr (by omega))
  simp only [Nat.zero_add] at h
  rw [h, wr_out _ _ _ _ _ (Or.inr (by omega))]

/-- the function called in a stage reads only the input window and writes `nA` values -/
def Local (G : (Nat → K) → Nat → K) (n nA : Nat) : Prop :=
  ∀ R R' : Nat → K, (∀ q < n, R q = R' q) → ∀ i < nA, G R i = G R' i

theorem adjIn_congr (c : Cfg K) (w : Fw K) (nF nA ko tq s : Nat) (hs : s < c.ns) (hnA : c.nx ≤ nA)
    (q q' : Aw K) (ht : q.tmp = q'.tmp) (hR : ∀ k : Fin c.nu, q.R (nF + c.nx + k) = q'.R (nF + c.nx + k))
    (htr : ∀ j, s < j → j < c.ns → ∀ i < nA, q.traj (j * nA + i) = q'.traj (j * nA + i)) (i : Nat)
    (hi : i < nF + c.nx + c.nu) :
    adjIn c w nF nA ko tq s q i = adjIn c w nF nA ko tq s q' i := by
  rcases Nat.lt_or_ge i nF with h1 | h1
  · rw [adjIn_fw _ _ _ _ _ _ _ _ _ h1, adjIn_fw _ _ _ _ _ _ _ _ _ h1]
  · rcases Nat.lt_or_ge i (nF + c.nx) with h2 | h2
    · obtain ⟨r, rfl⟩ := Nat.exists_eq_add_of_le h1
      rw [adjIn_lam _ _ _ _ _ _ _ hs _ _ (by omega), adjIn_lam _ _ _ _ _ _ _ hs _ _ (by omega), ht]
      congr 1
      refine sum_congr rfl fun j hj => ?_
      rw [mem_Ico] at hj
      rw [htr j (by omega) hj.2 r (by omega)]
    · rw [adjIn_u _ _ _ _ _ _ _ _ _ h2, adjIn_u _ _ _ _ _ _ _ _ _ h2]
      have := hR ⟨i - (nF + c.nx), by omega⟩
      simp only at this
      rwa [show nF + c.nx + (i - (nF + c.nx)) = i by omega] at this

/-- the backward stage loop: every stored block is the value at the final arrays -/
theorem adjStageLoop (G : (Nat → K) → Nat → K) (c : Cfg K) (w : Fw K) (nF nA ko tq : Nat) (hnA : c.nx ≤ nA)
    (hG : Local G (nF + c.nx + c.nu) nA) (u : Fin c.nu → K) (m : Nat) (hm : m ≤ c.ns) (q : Aw K)
    (hu : ∀ k : Fin c.nu, q.R (nF + c.nx + k) = u k) :
    let q' := (List.range m).reverse.foldl (adjStage G c w nF nA ko tq) q
    q'.tmp = q.tmp ∧ (∀ k : Fin c.nu, q'.R (nF + c.nx + k) = u k) ∧
      (∀ s < m, ∀ i < nA, q'.traj (s * nA + i) = G (adjIn c w nF nA ko tq s q') i) ∧
      ∀ i, m * nA ≤ i → q'.traj i = q.traj i := by
  induction m generalizing q with
  | zero => exact ⟨rfl, hu, fun s hs => absurd hs (by omega), fun _ _ => rfl⟩
  | succ m ih =>
    intro q'
    have hq' : q' = (List.range m).reverse.foldl (adjStage G c w nF nA ko tq) (adjStage G c w nF nA ko tq q m) := by
      simp only [q', List.range_succ, List.reverse_append, List.reverse_cons, List.reverse_nil, List.nil_append,
        List.cons_append, List.foldl_cons]
    have hR1 : ∀ k : Fin c.nu, (adjStage G c w nF nA ko tq q m).R (nF + c.nx + k) = u k := by
      intro k; rw [← hu k]; exact adjIn_u _ _ _ _ _ _ _ _ _ (by omega)
    obtain ⟨h1, h2, h3, h4⟩ := ih (by omega) (adjStage G c w nF nA ko tq q m) hR1
    rw [← hq'] at h1 h2 h3 h4
    have ht : q'.tmp = q.tmp := h1
    have hout : ∀ i, (m + 1) * nA ≤ i → q'.traj i = q.traj i := by
      intro i hi
      rw [Nat.add_mul] at hi
      rw [h4 i (by omega)]
      exact wr_out _ _ _ _ _ (Or.inr (by omega))
    refine ⟨ht, h2, fun s hs i hi => ?_, hout⟩
    rcases Nat.lt_succ_iff_lt_or_eq.1 hs with hlt | heq
    · exact h3 s hlt i hi
    · subst heq
      rw [h4 _ (by omega)]
      have e : (adjStage G c w nF nA ko tq q s).traj (s * nA + i) = G (adjIn c w nF nA ko tq s q) i :=
        wr_in _ _ _ _ _ hi
      rw [e]
      refine hG _ _ (fun r hr => ?_) i hi
      refine adjIn_congr c w nF nA ko tq s (by omega) hnA q q' ht.symm (fun k => ?_) (fun j hj _ i' hi' => ?_) r hr
      · rw [hu k, h2 k]
      · refine (hout _ ?_).symm
        have h1 : (s + 1) * nA ≤ j * nA := Nat.mul_le_mul_right _ hj
        omega

theorem adjUpdate_spec (c : Cfg K) (nA : Nat) (q : Aw K) (i : Nat) (hi : i < nA) :
    (adjUpdate c nA q).tmp i = q.tmp i + ∑ s ∈ range c.ns, q.traj (s * nA + i) := by
  have h := (accLoop' 0 nA (List.range c.ns) (fun s i => q.traj (s * nA + i)) q.tmp).1 i hi
  simp only [Nat.zero_add] at h
  rw [← sum_map_range]
  exact h

/-- one backward step: `l` are the stage adjoints -/
theorem adjStep_spec (G : (Nat → K) → Nat → K) (c : Cfg K) (w : Fw K) (nF nA : Nat) (hnA : c.nx ≤ nA)
    (hG : Local G (nF + c.nx + c.nu) nA) (u : Fin c.nu → K) (t : Nat) (q : Aw K)
    (hu : ∀ k : Fin c.nu, q.R (nF + c.nx + k) = u k) :
    ∃ R : Nat → Nat → K, (∀ s < c.ns, ∀ i < nF, R s i
          = w.T (t * c.nX + i) + ∑ j ∈ range s, c.step * c.a s j * w.Kt (t * c.ns * c.nX + j * c.nX + i)) ∧
      (∀ s < c.ns, ∀ i < c.nx, R s (nF + i)
          = c.step * c.b s * q.tmp i + ∑ j ∈ Ico (s + 1) c.ns, c.step * c.a j s * G (R j) i) ∧
      (∀ s < c.ns, ∀ k : Fin c.nu, R s (nF + c.nx + k) = u k) ∧
      (∀ i < nA, (adjStep G c w nF nA q t).tmp i = q.tmp i + ∑ s ∈ range c.ns, G (R s) i) ∧
      ∀ k : Fin c.nu, (adjStep G c w nF nA q t).R (nF + c.nx + k) = u k := by
  obtain ⟨h1, h2, h3, _⟩ := adjStageLoop G c w nF nA (t * c.ns * c.nX) (t * c.nX) hnA hG u c.ns (le_refl _) q hu
  have hst : adjStep G c w nF nA q t = adjUpdate c nA ((List.range c.ns).reverse.foldl
    (adjStage G c w nF nA (t * c.ns * c.nX) (t * c.nX)) q) := rfl
  rw [hst]
  generalize (List.range c.ns).reverse.foldl (adjStage G c w nF nA (t * c.ns * c.nX) (t * c.nX)) q = q'
    at h1 h2 h3
  refine ⟨fun s => adjIn c w nF nA (t * c.ns * c.nX) (t * c.nX) s q', fun s _ i hi => adjIn_fw _ _ _ _ _ _ _ _ _ hi,
    fun s hs i hi => ?_, fun s _ k => ?_, fun i hi => ?_, h2⟩
  · simp only
    rw [adjIn_lam _ _ _ _ _ _ _ hs _ _ hi, h1]
    congr 1
    refine sum_congr rfl fun j hj => ?_
    rw [h3 j (mem_Ico.1 hj).2 i (by omega)]
  · rw [← h2 k]; exact adjIn_u _ _ _ _ _ _ _ _ _ (by omega)
  · rw [adjUpdate_spec c nA q' i hi, h1]
    congr 1
    exact sum_congr rfl fun s hs => h3 s (mem_range.1 hs) i hi

/-- extension of a vector by zero -/
def ext0 {n : Nat} (v : Fin n → K) : Nat → K := fun r => if h : r < n then v ⟨r, h⟩ else 0

theorem ext0_fin {n : Nat} (v : Fin n → K) (r : Fin n) : ext0 v r = v r := by
  unfold ext0; rw [dif_pos r.2]

theorem sum_ext0 {n : Nat} (f : Nat → K) (v : Fin n → K) :
    ∑ r ∈ range n, f r * ext0 v r = ∑ r : Fin n, f r * v r := by
  rw [← Fin.sum_univ_eq_sum_range (fun r => f r * ext0 v r)]
  exact sum_congr rfl fun r _ => by rw [ext0_fin]

/-- what the adjoint function has to satisfy: its first `nx + nu` outputs are the products with the
transposed Jacobians at the state and controls found in the input array -/
def AdjProducts (c : Cfg K) (o : Ode K c.nx c.nu c.np) (p : Fin c.np → K) (nF : Nat) (G : (Nat → K) → Nat → K) :
    Prop :=
  ∀ R : Nat → K, (∀ i < c.nx, G R i = ∑ k ∈ range c.nx,
      o.fx (fun k => R k) (fun k => R (nF + c.nx + k)) p k i * R (nF + k)) ∧
    ∀ i < c.nu, G R (c.nx + i) = ∑ k ∈ range c.nx,
      o.fu (fun k => R k) (fun k => R (nF + c.nx + k)) p k i * R (nF + k)

/-- one backward step keeps the pairing with every tangent trajectory -/
theorem adjStep_pairing (G : (Nat → K) → Nat → K) (c : Cfg K) (o : Ode K c.nx c.nu c.np) (p : Fin c.np → K)
    (w : Fw K) (nF nA : Nat) (hnF : c.nx ≤ nF) (hnA : c.nx + c.nu ≤ nA)
    (hG : Local G (nF + c.nx + c.nu) nA) (hGp : AdjProducts c o p nF G) (u : Fin c.nu → K) (t : Nat) (q : Aw K)
    (hu : ∀ k : Fin c.nu, q.R (nF + c.nx + k) = u k)
    (Q : Pt K c.nx c.nu c.np × Pt K c.nx c.nu c.np) (hQ1 : Q.1.2 = (u, p)) (hQ2 : Q.2.2.2 = 0)
    (hT : ∀ k : Fin c.nx, w.T (t * c.nX + k) = Q.1.1 k)
    (hK : ∀ j < c.ns, ∀ k : Fin c.nx, w.Kt (t * c.ns * c.nX + j * c.nX + k)
      = (Rk.stages (hat o) c.a c.step Q.1 c.ns j).1 k) :
    let Q' := Rk.step (tan o) c.ns c.a c.b c.step Q
    let q' := adjStep G c w nF nA q t
    ∑ r : Fin c.nx, q.tmp r * Q'.2.1 r + ∑ k : Fin c.nu, q.tmp (c.nx + k) * Q'.2.2.1 k
      = ∑ r : Fin c.nx, q'.tmp r * Q.2.1 r + ∑ k : Fin c.nu, q'.tmp (c.nx + k) * Q.2.2.1 k := by
  intro Q' q'
  obtain ⟨R, hR1, hR2, hR3, hR4, _⟩ := adjStep_spec G c w nF nA (by omega) hG u t q hu
  -- stage points
  let Y := fun s => Rk.stagePoint c.a c.step Q (Rk.stages (tan o) c.a c.step Q c.ns) s
  have hYx : ∀ s < c.ns, (fun k : Fin c.nx => R s k) = (Y s).1.1 := by
    intro s hs
    funext k
    rw [hR1 s hs k (by have := k.2; omega), hT]
    simp only [Y, Rk.stagePoint, Prod.fst_add, Prod.fst_sum, Prod.smul_fst, Pi.add_apply, Finset.sum_apply,
      Pi.smul_apply, smul_eq_mul]
    congr 1
    refine sum_congr rfl fun j hj => ?_
    have hj' := mem_range.1 hj
    rw [hK j (by omega), tan_fst_stages o c.a c.step c.ns j (by omega)]
  have hconst : ∀ s < c.ns, (Y s).1.2 = (u, p) ∧ (Y s).2.2 = Q.2.2 := by
    intro s hs
    constructor
    · simp only [Y, Rk.stagePoint, Prod.fst_add, Prod.snd_add, Prod.fst_sum, Prod.snd_sum, Prod.smul_fst,
        Prod.smul_snd]
      rw [sum_eq_zero, add_zero, hQ1]
      intro j hj
      rw [(tan_const_stage o c.a c.step c.ns j (by have := mem_range.1 hj; omega) Q).1, smul_zero]
    · simp only [Y, Rk.stagePoint, Prod.snd_add, Prod.snd_sum, Prod.smul_snd]
      rw [sum_eq_zero, add_zero]
      intro j hj
      rw [(tan_const_stage o c.a c.step c.ns j (by have := mem_range.1 hj; omega) Q).2, smul_zero]
  have hRu : ∀ s < c.ns, (fun k : Fin c.nu => R s (nF + c.nx + k)) = u := fun s hs => funext fun k => hR3 s hs k
  let dk := fun s => ext0 (Rk.stages (tan o) c.a c.step Q c.ns s).2.1
  let F := fun s r k => o.fx (Y s).1.1 u p r k
  let g := fun s r => ∑ k ∈ range c.nu, o.fu (Y s).1.1 u p r k * ext0 Q.2.2.1 k
  have hadj := Rk.adjoint_step c.nx c.ns c.a c.b c.step F g dk (fun s r => R s (nF + r)) (fun s k => G (R s) k)
    (ext0 Q.2.1) q.tmp ?_ ?_ ?_
  · -- assemble
    have e1 : ∑ r : Fin c.nx, q.tmp r * Q'.2.1 r
        = ∑ r ∈ range c.nx, q.tmp r * (ext0 Q.2.1 r + ∑ s ∈ range c.ns, c.step * c.b s * dk s r) := by
      rw [← Fin.sum_univ_eq_sum_range
        (fun r => q.tmp r * (ext0 Q.2.1 r + ∑ s ∈ range c.ns, c.step * c.b s * dk s r))]
      refine sum_congr rfl fun r _ => ?_
      congr 1
      simp only [Q', Rk.step, dk, Prod.snd_add, Prod.fst_add, Prod.snd_sum, Prod.fst_sum, Prod.smul_snd,
        Prod.smul_fst, Pi.add_apply, Finset.sum_apply, Pi.smul_apply, smul_eq_mul, ext0_fin]
    have e2 : Q'.2.2 = Q.2.2 := (tan_const_step o c.ns c.a c.b c.step Q).2
    rw [e1, hadj, e2, ← sum_ext0 (fun r => q'.tmp r) Q.2.1, ← sum_ext0 (fun r => q'.tmp (c.nx + r)) Q.2.2.1,
      ← sum_ext0 (fun r => q.tmp (c.nx + r)) Q.2.2.1]
    have e3 : ∑ r ∈ range c.nx, q'.tmp r * ext0 Q.2.1 r
        = ∑ r ∈ range c.nx, (q.tmp r + ∑ s ∈ range c.ns, G (R s) r) * ext0 Q.2.1 r :=
      sum_congr rfl fun r hr => by rw [hR4 r (by have := mem_range.1 hr; omega)]
    have e4 : ∑ k ∈ range c.nu, q'.tmp (c.nx + k) * ext0 Q.2.2.1 k
        = ∑ k ∈ range c.nu, q.tmp (c.nx + k) * ext0 Q.2.2.1 k
          + ∑ s ∈ range c.ns, ∑ r ∈ range c.nx, R s (nF + r) * g s r := by
      have e5 : ∑ s ∈ range c.ns, ∑ r ∈ range c.nx, R s (nF + r) * g s r
          = ∑ k ∈ range c.nu, (∑ s ∈ range c.ns, G (R s) (c.nx + k)) * ext0 Q.2.2.1 k := by
        simp only [sum_mul]
        rw [sum_comm (s := range c.nu)]
        refine sum_congr rfl fun s hs => ?_
        have hs' := mem_range.1 hs
        simp only [g, mul_sum]
        rw [sum_comm]
        refine sum_congr rfl fun k hk => ?_
        rw [(hGp (R s)).2 k (mem_range.1 hk), sum_mul, hYx s hs', hRu s hs']
        exact sum_congr rfl fun r _ => by ring
      rw [e5, ← sum_add_distrib]
      refine sum_congr rfl fun k hk => ?_
      rw [hR4 _ (by have := mem_range.1 hk; omega)]
      ring
    rw [e3, e4]
    ring
  · intro s hs r hr
    have e1 : dk s r = jac o (Y s).1 (Y s).2 ⟨r, hr⟩ := by
      simp only [dk, ext0, dif_pos hr]
      rw [Rk.stages_eq _ _ _ _ _ _ hs]
      rfl
    obtain ⟨hc1, hc2⟩ := hconst s hs
    rw [e1]
    unfold jac
    rw [hc1, hc2, hQ2]
    simp only [Pi.zero_apply, mul_zero, sum_const_zero, add_zero, F, g]
    rw [sum_ext0 (fun k => o.fu (Y s).1.1 u p r k) Q.2.2.1]
    congr 1
    rw [← Fin.sum_univ_eq_sum_range
      (fun k => o.fx (Y s).1.1 u p r k * (ext0 Q.2.1 k + ∑ j ∈ range s, c.step * c.a s j * dk j k))]
    refine sum_congr rfl fun k _ => ?_
    congr 1
    simp only [Y, Rk.stagePoint, dk, Prod.snd_add, Prod.fst_add, Prod.snd_sum, Prod.fst_sum, Prod.smul_snd,
      Prod.smul_fst, Pi.add_apply, Finset.sum_apply, Pi.smul_apply, smul_eq_mul, ext0_fin]
  · intro s hs k hk
    simp only [F]
    rw [(hGp (R s)).1 k hk, hYx s hs, hRu s hs]
  · intro s hs r hr
    exact hR2 s hs r hr

/-- the backward loop keeps the pairing -/
theorem adjLoop_pairing (G : (Nat → K) → Nat → K) (c : Cfg K) (o : Ode K c.nx c.nu c.np) (p : Fin c.np → K)
    (w : Fw K) (nF nA : Nat) (hnF : c.nx ≤ nF) (hnA : c.nx + c.nu ≤ nA)
    (hG : Local G (nF + c.nx + c.nu) nA) (hGp : AdjProducts c o p nF G) (u : Fin c.nu → K) (N : Nat)
    (Q : Pt K c.nx c.nu c.np × Pt K c.nx c.nu c.np) (hQ1 : Q.1.2 = (u, p)) (hQ2 : Q.2.2.2 = 0)
    (hT : ∀ t ≤ N, ∀ k : Fin c.nx, w.T (t * c.nX + k) = ((Rk.step (hat o) c.ns c.a c.b c.step)^[t] Q.1).1 k)
    (hK : ∀ t < N, ∀ j < c.ns, ∀ k : Fin c.nx, w.Kt (t * c.ns * c.nX + j * c.nX + k)
      = (Rk.stages (hat o) c.a c.step ((Rk.step (hat o) c.ns c.a c.b c.step)^[t] Q.1) c.ns j).1 k)
    (q : Aw K) (hu : ∀ k : Fin c.nu, q.R (nF + c.nx + k) = u k) :
    let Q' := (Rk.step (tan o) c.ns c.a c.b c.step)^[N] Q
    let q' := (List.range N).reverse.foldl (adjStep G c w nF nA) q
    ∑ r : Fin c.nx, q.tmp r * Q'.2.1 r + ∑ k : Fin c.nu, q.tmp (c.nx + k) * Q'.2.2.1 k
      = ∑ r : Fin c.nx, q'.tmp r * Q.2.1 r + ∑ k : Fin c.nu, q'.tmp (c.nx + k) * Q.2.2.1 k := by
  induction N generalizing q with
  | zero => rfl
  | succ N ih =>
    intro Q' q'
    have hq' : q' = (List.range N).reverse.foldl (adjStep G c w nF nA) (adjStep G c w nF nA q N) := by
      simp only [q', List.range_succ, List.reverse_append, List.reverse_cons, List.reverse_nil, List.nil_append,
        List.cons_append, List.foldl_cons]
    have hR : ∀ k : Fin c.nu, (adjStep G c w nF nA q N).R (nF + c.nx + k) = u k := by
      obtain ⟨_, _, _, _, _, h⟩ := adjStep_spec G c w nF nA (by omega) hG u N q hu
      exact h
    have hih := ih (fun t ht => hT t (by omega)) (fun t ht => hK t (by omega)) (adjStep G c w nF nA q N) hR
    simp only at hih
    rw [← hq'] at hih
    have hc := tan_const_iterate o c.ns c.a c.b c.step N Q
    have hf := tan_fst_iterate o c.ns c.a c.b c.step N Q
    have hst := adjStep_pairing G c o p w nF nA hnF hnA hG hGp u N q hu
      ((Rk.step (tan o) c.ns c.a c.b c.step)^[N] Q) (hc.1.trans hQ1) (by rw [hc.2]; exact hQ2)
      (fun k => by rw [hf]; exact hT N (by omega) k)
      (fun j hj k => by rw [hf]; exact hK N (by omega) j hj k)
    simp only at hst
    rw [← hih, ← hst]
    simp only [Q', Function.iterate_succ_apply']

end Acados.Erk
