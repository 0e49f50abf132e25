import Verif.Props.Irk
import Verif.Spec.LiftedIrk
import Mathlib.Tactic.LinearCombination
import Mathlib.Tactic.Linarith
/-!
# C77: lifted implicit Runge-Kutta integrator
-/
namespace Acados.LiftedIrk
open Matrix
open Acados.Irk (Dims Ext Opts Pt stageOf nextOf atStage tangent Solves Regular nK kB zB rB ExactLu idSeed sndP fstP
  ptOf)
open Acados.Gnsf (Lu IsLu solveV solveM)
set_option linter.unusedSectionVars false
variable {K : Type*} [Field K] [LinearOrder K] {d : Dims}

theorem zB_nil (hz : d.nz = 0) (v : Fin (nK d) → K) : zB d v = 0 := by
  funext i c; exact absurd c.isLt (by omega)

theorem ptOf_pt (hz : d.nz = 0) (h : K) (x : Fin d.nx → K) (k : Fin (nK d) → K) :
    ptOf d 0 h 0 x k = pt x (kB d k) := by
  simp only [ptOf, pt, zB_nil hz]; simp

section Run
variable (o : Opts K) (h : K) (e : Ext d K)
  (g : Matrix (Fin (nK d)) (Fin (nK d)) K → Lu (Fin (nK d)) K) (inp : In d K)

theorem nextOf_noT {s n : Nat} (x : Fin n → K) (k : Fin s → Fin n → K) : nextOf (noT o) h x k = nextOf o h x k := rfl

theorem addDx_blk (ss : Nat) (xn : Fin d.nx → K) (k : Fin (nK d) → K) (dx : Fin d.nx → K) (r : Fin (nK d) → K)
    (i : Fin d.s) (u : Fin d.nu → K) :
    rB d (addDx d (Irk.dGdxu d o h 0 e u ss xn k 0) dx r) i
      = rB d r i + atStage o h u (ptOf d ss h 0 xn k) i e.fx *ᵥ dx := by
  have e1 : addDx d (Irk.dGdxu d o h 0 e u ss xn k 0) dx r
      = r + Irk.dGdxu d o h 0 e u ss xn k 0 *ᵥ Irk.cat2 dx 0 := by
    funext a
    simp only [addDx, Pi.add_apply, mulVec, dotProduct, Fin.sum_univ_add, Finset.sum_range]
    congr 1
    have : ∑ l : Fin d.nu, Irk.dGdxu d o h 0 e u ss xn k 0 a (Fin.natAdd d.nx l)
        * Irk.cat2 dx (0 : Fin d.nu → K) (Fin.natAdd d.nx l) = 0 :=
      Finset.sum_eq_zero fun l _ => by simp [Irk.cat2]
    rw [this, add_zero]
    refine Finset.sum_congr rfl fun l _ => ?_
    rw [Irk.rd2_lt _ _ _ a.isLt (by have := l.isLt; omega), Irk.rd_lt _ _ l.isLt]
    simp only [Irk.cat2, Fin.append_left]
    rfl
  rw [e1]
  have := Irk.dGdxu_mulVec o h 0 e u ss xn k 0 (Irk.cat2 dx 0) i
  rw [Irk.fst_cat2, Irk.snd_cat2, Matrix.mulVec_zero, add_zero] at this
  rw [← this]
  exact Irk.blk_add _ _ _ _

theorem stageOf_sub {s n : Nat} (x y : Fin n → K) (k l : Fin s → Fin n → K) (j : Fin s) :
    stageOf o h (x - y) (k - l) j = stageOf o h x k j - stageOf o h y l j := by
  funext r
  simp only [stageOf, Pi.sub_apply, mul_sub, Finset.sum_sub_distrib]
  ring

theorem nextOf_sub {s n : Nat} (x y : Fin n → K) (k l : Fin s → Fin n → K) :
    nextOf o h (x - y) (k - l) = nextOf o h x k - nextOf o h y l := by
  funext r
  simp only [nextOf, Pi.sub_apply, mul_sub, Finset.sum_sub_distrib]
  ring

theorem dxn_eq (δ : Fin (nK d) → K) (dx : Fin d.nx → K) :
    Irk.loop d.s (fun ii x => Irk.daxpy d.nx (-h * o.b_vec ii) δ (ii * d.nx) x 0) dx = nextOf o h dx (-(kB d δ)) := by
  have := Irk.nextX_eq (o := o) (h := -h) dx δ
  have e1 : Irk.nextX d o (-h) dx δ
      = Irk.loop d.s (fun ii x => Irk.daxpy d.nx (-h * o.b_vec ii) δ (ii * d.nx) x 0) dx := rfl
  rw [← e1, this]
  funext r
  simp [nextOf]

/-- what one step of the loop does -/
theorem lstep_spec (hz : d.nz = 0) (hg : ExactLu g) (ss : Nat) (st : St d K)
    (hdx : st.dxn = st.xnOut - st.xn) (hid : (inp.ident && ss == 0) = true → st.S = idSeed d K)
    (hr : Regular (noT o) h e inp.u (pt st.xn (kB d (expand d inp st.mem ss)))) :
    let st' := lstep d o h e g inp ss st
    let k := kB d (expand d inp st.mem ss)
    let k' := kB d (st'.mem.k ss)
    (∀ i, atStage (noT o) h inp.u (pt st.xn k) i e.f
      + tangent (noT o) h e inp.u (pt st.xn k) (st.xnOut - st.xn) 0 (k' - k) 0 i = 0)
    ∧ st'.xn = nextOf o h st.xn k ∧ st'.xnOut = nextOf o h st.xnOut k' ∧ st'.dxn = st'.xnOut - st'.xn
    ∧ ∀ v, (∀ i, tangent (noT o) h e inp.u (pt st.xn k) (st.S *ᵥ v) (sndP v) (kB d (-(st'.mem.D ss *ᵥ v))) 0 i = 0)
      ∧ st'.S *ᵥ v = nextOf o h (st.S *ᵥ v) (kB d (-(st'.mem.D ss *ᵥ v))) := by
  intro st' k k'
  have hk' : st'.mem.k ss = expand d inp st.mem ss - solveV (g (Irk.dGdK d (noT o) h 0 e inp.u 0 st.xn (expand d inp st.mem ss)))
      (addDx d (Irk.dGdxu d (noT o) h 0 e inp.u 0 st.xn (expand d inp st.mem ss) 0) st.dxn
        (Irk.rG d (noT o) h 0 e inp.u 0 st.xn (expand d inp st.mem ss) st.rG)) := by
    simp [st', lstep]
  have hD : st'.mem.D ss = Irk.dKdxu d (noT o) h 0 e inp.u g 0 (inp.ident && ss == 0) st.xn (expand d inp st.mem ss) 0 st.S := by
    simp [st', lstep]
  set kk := expand d inp st.mem ss with hkk
  set δ := solveV (g (Irk.dGdK d (noT o) h 0 e inp.u 0 st.xn kk))
      (addDx d (Irk.dGdxu d (noT o) h 0 e inp.u 0 st.xn kk 0) st.dxn
        (Irk.rG d (noT o) h 0 e inp.u 0 st.xn kk st.rG)) with hδ
  have hr' : Regular (noT o) h e inp.u (ptOf d 0 h 0 st.xn kk) := by rw [ptOf_pt hz]; exact hr
  have hkd : k' - k = -(kB d δ) := by
    show kB d (st'.mem.k ss) - kB d kk = _
    rw [hk', Irk.kB_sub]; abel
  have a2 : st'.xnOut = nextOf o h st.xnOut k' := by
    show Irk.nextX d o h st.xnOut (kk - δ) = nextOf o h st.xnOut (kB d (st'.mem.k ss))
    rw [hk', Irk.nextX_eq]
  refine ⟨?_, Irk.nextX_eq o h _ _, a2, ?_, ?_⟩
  · intro i
    have h1 := Irk.luAt_fresh (noT o) h 0 e inp.u g hg 0 st.xn kk hr'
      (addDx d (Irk.dGdxu d (noT o) h 0 e inp.u 0 st.xn kk 0) st.dxn
        (Irk.rG d (noT o) h 0 e inp.u 0 st.xn kk st.rG)) i
    rw [addDx_blk, Irk.rG_blk, zB_nil hz, ptOf_pt hz] at h1
    rw [Irk.tangent_split, hkd]
    have h2 := Irk.tangent_neg (noT o) h e inp.u (pt st.xn (kB d kk)) (kB d δ) 0 i
    rw [neg_zero] at h2
    show atStage (noT o) h inp.u (pt st.xn (kB d kk)) i e.f + (tangent (noT o) h e inp.u (pt st.xn (kB d kk)) 0 0 (-(kB d δ)) 0 i + _) = 0
    rw [h2, h1, hdx, Matrix.mulVec_zero]
    show _ + (-(_ + atStage (noT o) h inp.u (pt st.xn (kB d kk)) i e.fx *ᵥ (st.xnOut - st.xn)) + (atStage (noT o) h inp.u (pt st.xn (kB d kk)) i e.fx *ᵥ (st.xnOut - st.xn) + 0)) = 0
    abel
  · have a1 : st'.xn = nextOf o h st.xn k := Irk.nextX_eq o h _ _
    have a3 : st'.dxn = nextOf o h st.dxn (-(kB d δ)) := dxn_eq o h _ _
    rw [a1, a2, a3, ← nextOf_sub, hdx, hkd]
  · intro v
    constructor
    · intro i
      have := Irk.dKdxu_lin (noT o) h 0 e inp.u g hg 0 (inp.ident && ss == 0) st.xn kk hr' 0 st.S hid v i
      rw [zB_nil hz, ptOf_pt hz, ← hD] at this
      exact this
    · show Irk.forwNext d o h _ st.S *ᵥ v = _
      rw [Irk.forwNext_mulVec, hD]

theorem run_mem_lt (n : Nat) : ∀ (ss : Nat) (st : St d K) (i : Nat), i < ss →
    (run d o h e g inp n ss st).mem.k i = st.mem.k i ∧ (run d o h e g inp n ss st).mem.D i = st.mem.D i := by
  induction n with
  | zero => intro ss st i _; exact ⟨rfl, rfl⟩
  | succ n ih =>
    intro ss st i hi
    obtain ⟨h1, h2⟩ := ih (ss + 1) (lstep d o h e g inp ss st) i (by omega)
    refine ⟨h1.trans ?_, h2.trans ?_⟩ <;> simp [lstep, Function.update_of_ne (Nat.ne_of_lt hi)]

/-- memory of step `ss` is what the call started with, up to the expansion of step 0 -/
def MemAt (m0 : Mem d K) (ss : Nat) (m : Mem d K) : Prop :=
  (ss = 0 → m = m0) ∧ (ss ≠ 0 → m.x = inp.x ∧ m.u = inp.u) ∧ ∀ i, ss ≤ i → m.k i = m0.k i ∧ m.D i = m0.D i

theorem expand_eq {m0 m : Mem d K} {ss : Nat} (hm : MemAt inp m0 ss m) :
    kB d (expand d inp m ss) = predicted inp m0 ss := by
  obtain ⟨h1, h2, h3⟩ := hm
  unfold expand predicted dw
  rcases Nat.eq_zero_or_pos ss with h0 | h0
  · subst h0; rw [h1 rfl, if_pos rfl]; rfl
  · obtain ⟨hx, hu⟩ := h2 (by omega)
    have : (Fin.append (inp.x - m.x) (inp.u - m.u)) = 0 := by
      rw [hx, hu, sub_self, sub_self]
      funext i
      refine Fin.addCases (fun i => ?_) (fun i => ?_) i <;> simp
    rw [this, Matrix.mulVec_zero, add_zero, (h3 ss le_rfl).1, if_neg (by omega), add_zero]

theorem memAt_step {m0 : Mem d K} {ss : Nat} {st : St d K} (hm : MemAt inp m0 ss st.mem) :
    MemAt inp m0 (ss + 1) (lstep d o h e g inp ss st).mem := by
  refine ⟨fun h0 => absurd h0 (by omega), fun _ => ⟨rfl, rfl⟩, fun i hi => ?_⟩
  obtain ⟨h1, h2⟩ := hm.2.2 i (by omega)
  constructor
  · exact (by simp [lstep, Function.update_of_ne (show i ≠ ss by omega)] : _ = st.mem.k i).trans h1
  · exact (by simp [lstep, Function.update_of_ne (show i ≠ ss by omega)] : _ = st.mem.D i).trans h2

theorem run_spec (hz : d.nz = 0) (hg : ExactLu g) (m0 : Mem d K) (n : Nat) : ∀ (ss : Nat) (st : St d K),
    MemAt inp m0 ss st.mem → st.dxn = st.xnOut - st.xn → ((inp.ident && ss == 0) = true → st.S = idSeed d K) →
    RegAlong (noT o) h e inp.u ((List.range' ss n).map (predicted inp m0)) st.xn →
    Newton (noT o) h e inp.u ((List.range' ss n).map (predicted inp m0)) st.xn st.xnOut
      ((List.range' ss n).map fun i => kB d ((run d o h e g inp n ss st).mem.k i)) (run d o h e g inp n ss st).xnOut
    ∧ ∀ v, Sens (noT o) h e inp.u (sndP v) ((List.range' ss n).map (predicted inp m0)) st.xn (st.S *ᵥ v)
      ((run d o h e g inp n ss st).S *ᵥ v) := by
  induction n with
  | zero => intro ss st _ _ _ _; exact ⟨Newton.nil _ _, fun v => Sens.nil _ _⟩
  | succ n ih =>
    intro ss st hm hdx hid hreg
    rw [List.range'_succ, List.map_cons] at hreg ⊢
    obtain ⟨hr1, hr2⟩ := hreg
    rw [← expand_eq inp hm] at hr1 hr2 ⊢
    obtain ⟨p1, p2, p3, p4, p5⟩ := lstep_spec o h e g inp hz hg ss st hdx hid hr1
    have hmem := memAt_step o h e g inp hm
    obtain ⟨q1, q2⟩ := ih (ss + 1) (lstep d o h e g inp ss st) hmem p4
      (fun hc => by simp at hc) (by rw [p2]; exact hr2)
    have hk := (run_mem_lt o h e g inp n (ss + 1) (lstep d o h e g inp ss st) ss (by omega)).1
    constructor
    · rw [List.map_cons]
      refine Newton.cons _ _ _ _ _ _ _ (fun i => ?_) ?_
      · show _ + tangent _ _ _ _ _ _ _ (kB d ((run d o h e g inp n (ss + 1) (lstep d o h e g inp ss st)).mem.k ss) - _) _ i = 0
        rw [hk]; exact p1 i
      · show Newton _ _ _ _ _ _ (nextOf (noT o) h st.xnOut (kB d ((run d o h e g inp n (ss + 1) (lstep d o h e g inp ss st)).mem.k ss))) _ _
        rw [hk, nextOf_noT, nextOf_noT, ← p3, ← p2]; exact q1
    · intro v
      refine Sens.cons _ _ _ _ _ _ (p5 v).1 ?_
      rw [nextOf_noT, nextOf_noT, ← (p5 v).2, ← p2]
      exact q2 v

end Run

section Call
variable (lo : LOpts K) (e : Ext d K) (g : Matrix (Fin (nK d)) (Fin (nK d)) K → Lu (Fin (nK d)) K)

/-- step size of a call -/
abbrev hOf (inp : In d K) : K := inp.T / lo.num_steps

theorem call_run {inp : In d K} {m : Mem d K} {r} (hc : call d lo e g inp m = some r) :
    d.nz = 0 ∧ r = ((run d lo.o (inp.T / lo.num_steps) e g inp lo.num_steps 0 ⟨m, inp.x, inp.x, 0, inp.S, 0⟩).xnOut,
      (run d lo.o (inp.T / lo.num_steps) e g inp lo.num_steps 0 ⟨m, inp.x, inp.x, 0, inp.S, 0⟩).S,
      (run d lo.o (inp.T / lo.num_steps) e g inp lo.num_steps 0 ⟨m, inp.x, inp.x, 0, inp.S, 0⟩).mem) := by
  unfold call at hc
  split_ifs at hc with h1 h2 h3 h4 h5 h6
  exact ⟨not_not.mp h2, (Option.some.inj hc).symm⟩

/-- **C77 (one Newton iteration per call).**  Whatever memory a call starts with, a call that returns has made
one Newton iteration for the stage equations of all steps together: it linearises at the trajectory from
`in->x` with the predicted stage values, the returned state is the end of the corrected trajectory, the
corrected stage values are stored, and the returned sensitivities are the linearisation of the steps at the
predicted trajectory applied to the seed. -/
theorem C77_newton (hg : ExactLu g) (inp : In d K) (m : Mem d K) (xN : Fin d.nx → K)
    (S : Matrix (Fin d.nx) (Fin (d.nx + d.nu)) K) (m' : Mem d K)
    (hc : call d lo e g inp m = some (xN, S, m'))
    (hid : inp.ident = true → inp.S = idSeed d K)
    (hr : RegAlong (noT lo.o) (hOf lo inp) e inp.u (predictions inp m lo.num_steps) inp.x) :
    Newton (noT lo.o) (hOf lo inp) e inp.u (predictions inp m lo.num_steps) inp.x inp.x (stored m' lo.num_steps) xN
    ∧ ∀ v, Sens (noT lo.o) (hOf lo inp) e inp.u (sndP v) (predictions inp m lo.num_steps) inp.x (inp.S *ᵥ v) (S *ᵥ v) := by
  obtain ⟨hz, hr'⟩ := call_run lo e g hc
  obtain ⟨h1, h2⟩ := Prod.mk.inj hr'
  obtain ⟨h2, h3⟩ := Prod.mk.inj h2
  have := run_spec lo.o (inp.T / lo.num_steps) e g inp hz hg m lo.num_steps 0 ⟨m, inp.x, inp.x, 0, inp.S, 0⟩
    ⟨fun _ => rfl, fun h0 => absurd rfl h0, fun _ _ => ⟨rfl, rfl⟩⟩ (sub_self _).symm (fun hc => hid (by simpa using hc))
    (by rw [← List.range_eq_range']; exact hr)
  rw [← List.range_eq_range', ← h1, ← h2, ← h3] at this
  exact this

/-! ### A stored solution stays -/

theorem newton_exact (o : Opts K) (h : K) (u : Fin d.nu → K) {ks ks' : List (Stages d K)}
    {x y yN : Fin d.nx → K} (hn : Newton o h e u ks x y ks' yN) : y = x → RegAlong o h e u ks x →
    ∀ xN, Exact o h e u ks x xN → ks' = ks ∧ yN = xN := by
  induction hn with
  | nil x y => intro hxy _ xN he; cases he; exact ⟨rfl, hxy⟩
  | cons k k' ks ks' x y yN heq _ ih =>
    intro hxy hr xN he
    subst hxy
    obtain ⟨hr1, hr2⟩ := hr
    cases he with
    | cons _ _ _ _ hs he =>
      have hk : k' = k := by
        have := (hr1 (k' - k) 0 fun i => by
          have := heq i
          rw [hs i, sub_self, zero_add] at this
          exact this).1
        exact sub_eq_zero.mp this
      subst hk
      obtain ⟨h1, h2⟩ := ih rfl hr2 xN he
      exact ⟨by rw [h1], h2⟩

/-- **C77 (a solution stays).**  If the predicted stage values solve the stage equations of all steps, the call
keeps them and returns the end point of the exact Runge-Kutta steps. -/
theorem C77_converged (hg : ExactLu g) (inp : In d K) (m : Mem d K) (xN xE : Fin d.nx → K)
    (S : Matrix (Fin d.nx) (Fin (d.nx + d.nu)) K) (m' : Mem d K)
    (hc : call d lo e g inp m = some (xN, S, m'))
    (hid : inp.ident = true → inp.S = idSeed d K)
    (hr : RegAlong (noT lo.o) (hOf lo inp) e inp.u (predictions inp m lo.num_steps) inp.x)
    (he : Exact (noT lo.o) (hOf lo inp) e inp.u (predictions inp m lo.num_steps) inp.x xE) :
    stored m' lo.num_steps = predictions inp m lo.num_steps ∧ xN = xE :=
  newton_exact e _ _ _ (C77_newton lo e g hg inp m xN S m' hc hid hr).1 rfl hr xE he

theorem predictions_same {inp : In d K} {m : Mem d K} (hx : m.x = inp.x) (hu : m.u = inp.u) (n : Nat) :
    predictions inp m n = stored m n := by
  refine List.map_congr_left fun i _ => ?_
  have : (Fin.append (inp.x - m.x) (inp.u - m.u)) = 0 := by
    rw [hx, hu, sub_self, sub_self]
    funext i
    refine Fin.addCases (fun i => ?_) (fun i => ?_) i <;> simp
  unfold predicted
  rw [this, Matrix.mulVec_zero]
  split <;> exact add_zero _

/-- a call remembers its inputs -/
theorem run_inputs (o : Opts K) (h : K) (inp : In d K) (n : Nat) : ∀ ss st, n ≠ 0 →
    (run d o h e g inp n ss st).mem.x = inp.x ∧ (run d o h e g inp n ss st).mem.u = inp.u := by
  induction n with
  | zero => intro ss st h0; exact absurd rfl h0
  | succ n ih =>
    intro ss st _
    rcases Nat.eq_zero_or_pos n with h0 | h0
    · subst h0; exact ⟨rfl, rfl⟩
    · exact ih (ss + 1) _ (by omega)

/-- **C77 (repeated calls).**  If the stage values stored by a call solve the stage equations, the next call
with the same state and control returns the exact Runge-Kutta solution and leaves the stage values as they
are. -/
theorem C77_repeat (hg : ExactLu g) (hn : lo.num_steps ≠ 0) (inp inp' : In d K) (m m1 m2 : Mem d K)
    (xN xN' xE : Fin d.nx → K) (S S' : Matrix (Fin d.nx) (Fin (d.nx + d.nu)) K)
    (hc : call d lo e g inp m = some (xN, S, m1)) (hc' : call d lo e g inp' m1 = some (xN', S', m2))
    (hx : inp'.x = inp.x) (hu : inp'.u = inp.u)
    (hid : inp'.ident = true → inp'.S = idSeed d K)
    (hr : RegAlong (noT lo.o) (hOf lo inp') e inp'.u (stored m1 lo.num_steps) inp'.x)
    (he : Exact (noT lo.o) (hOf lo inp') e inp'.u (stored m1 lo.num_steps) inp'.x xE) :
    stored m2 lo.num_steps = stored m1 lo.num_steps ∧ xN' = xE := by
  obtain ⟨_, hrun⟩ := call_run lo e g hc
  have hm := (Prod.mk.inj (Prod.mk.inj hrun).2).2
  obtain ⟨i1, i2⟩ := run_inputs e g lo.o (inp.T / lo.num_steps) inp lo.num_steps 0 ⟨m, inp.x, inp.x, 0, inp.S, 0⟩ hn
  rw [← hm] at i1 i2
  have hp := predictions_same (inp := inp') (m := m1) (i1.trans hx.symm) (i2.trans hu.symm) lo.num_steps
  rw [← hp] at hr he ⊢
  exact C77_converged lo e g hg inp' m1 xN' xE S' m2 hc' hid hr he

/-! ### Affine models -/

section Affine
variable {Fx Fk : Matrix (Fin (d.nx + d.nz)) (Fin d.nx) K} {Fu : Matrix (Fin (d.nx + d.nz)) (Fin d.nu) K}
  {c : Fin (d.nx + d.nz) → K}

theorem tangent_affine (ha : AffineOde e Fx Fk Fu c) (o : Opts K) (h : K) (u : Fin d.nu → K) (P : Pt d K)
    (δx : Fin d.nx → K) (δu : Fin d.nu → K) (δk : Stages d K) (i : Fin d.s) :
    tangent o h e u P δx δu δk 0 i = Fx *ᵥ stageOf o h δx δk i + Fk *ᵥ δk i + Fu *ᵥ δu := by
  simp only [tangent, atStage, ha.fx, ha.fk, ha.fu]
  have : (0 : Fin d.s → Fin d.nz → K) i = 0 := rfl
  rw [this, Matrix.mulVec_zero, add_zero]

theorem f_affine (ha : AffineOde e Fx Fk Fu c) (o : Opts K) (h : K) (u u' : Fin d.nu → K) (x x' : Fin d.nx → K)
    (k k' : Stages d K) (P : Pt d K) (i : Fin d.s) :
    atStage o h u' (pt x' k') i e.f = atStage o h u (pt x k) i e.f
      + tangent o h e u P (x' - x) (u' - u) (k' - k) 0 i := by
  rw [tangent_affine e ha, stageOf_sub]
  simp only [atStage, ha.f, pt]
  have : (k' - k) i = k' i - k i := rfl
  rw [this, Matrix.mulVec_sub, Matrix.mulVec_sub, Matrix.mulVec_sub]
  abel

theorem regular_affine (ha : AffineOde e Fx Fk Fu c) (hz : d.nz = 0) {o : Opts K} {h : K} {u u' : Fin d.nu → K}
    {P : Pt d K} (hr : Regular o h e u P) (Q : Pt d K) : Regular o h e u' Q := by
  intro δk δz hq
  have h0 : δz = 0 := by funext i c; exact absurd c.isLt (by omega)
  subst h0
  exact hr δk 0 fun i => by rw [tangent_affine e ha, ← hq i, tangent_affine e ha]

theorem regAlong_affine (ha : AffineOde e Fx Fk Fu c) (hz : d.nz = 0) {o : Opts K} {h : K} {u u' : Fin d.nu → K}
    {P : Pt d K} (hr : Regular o h e u P) : ∀ (ks : List (Stages d K)) x, RegAlong o h e u' ks x
  | [], _ => trivial
  | _ :: ks, _ => ⟨regular_affine e ha hz hr _, regAlong_affine ha hz hr ks _⟩

theorem exact_affine (ha : AffineOde e Fx Fk Fu c) {o : Opts K} {h : K} {u : Fin d.nu → K}
    {ks ks' : List (Stages d K)} {x y yN : Fin d.nx → K} (hn : Newton o h e u ks x y ks' yN) :
    Exact o h e u ks' y yN := by
  induction hn with
  | nil => exact Exact.nil _
  | cons k k' ks ks' x y yN heq _ ih =>
    refine Exact.cons _ _ _ _ (fun i => ?_) ih
    rw [f_affine e ha o h u u x y k k' (pt x k) i, sub_self]
    exact heq i

theorem sens_affine (ha : AffineOde e Fx Fk Fu c) {o : Opts K} {h : K} {u : Fin d.nu → K} {δu : Fin d.nu → K}
    {ks : List (Stages d K)} {x δ δN : Fin d.nx → K} (hs : Sens o h e u δu ks x δ δN) :
    ∀ (ks' : List (Stages d K)) y, ks'.length = ks.length → Sens o h e u δu ks' y δ δN := by
  induction hs with
  | nil x δ => intro ks' y hl; rw [List.length_eq_zero_iff.mp hl]; exact Sens.nil _ _
  | cons k ks x δ δk δN heq _ ih =>
    intro ks' y hl
    cases ks' with
    | nil => simp at hl
    | cons k' ks' =>
      refine Sens.cons _ _ _ _ δk _ (fun i => ?_) (ih ks' _ (by simpa using hl))
      rw [tangent_affine e ha, ← heq i, tangent_affine e ha]

theorem exact_unique (ha : AffineOde e Fx Fk Fu c) {o : Opts K} {h : K} {u : Fin d.nu → K}
    {P : Pt d K} (hr : Regular o h e u P) {ks : List (Stages d K)} {x xN : Fin d.nx → K}
    (h1 : Exact o h e u ks x xN) : ∀ ks' yN, ks'.length = ks.length → Exact o h e u ks' x yN → ks' = ks ∧ yN = xN := by
  induction h1 with
  | nil x =>
    intro ks' yN hl h2
    rw [List.length_eq_zero_iff.mp hl] at h2 ⊢
    cases h2; exact ⟨rfl, rfl⟩
  | cons k ks x xN hs _ ih =>
    intro ks' yN hl h2
    cases h2 with
    | nil => simp at hl
    | cons k' ks' _ _ hs' h2 =>
      have hk : k' = k := by
        refine sub_eq_zero.mp (hr (k' - k) 0 fun i => ?_).1
        have := f_affine e ha o h u u x x k k' P i
        rw [hs i, hs' i, sub_self, sub_self, zero_add] at this
        exact this.symm
      subst hk
      obtain ⟨a, b⟩ := ih ks' yN (by simpa using hl) h2
      exact ⟨by rw [a], b⟩

theorem sens_unique (ha : AffineOde e Fx Fk Fu c) {o : Opts K} {h : K} {u δu : Fin d.nu → K}
    {P : Pt d K} (hr : Regular o h e u P) {ks : List (Stages d K)} {x δ δN : Fin d.nx → K}
    (h1 : Sens o h e u δu ks x δ δN) : ∀ τ, Sens o h e u δu ks x δ τ → τ = δN := by
  induction h1 with
  | nil x δ => intro τ h2; cases h2; rfl
  | cons k ks x δ δk δN heq _ ih =>
    intro τ h2
    cases h2 with
    | cons _ _ _ _ δk' _ heq' h2 =>
      have hk : δk' = δk := by
        refine sub_eq_zero.mp (hr (δk' - δk) 0 fun i => ?_).1
        have e1 := heq i
        have e2 := heq' i
        rw [tangent_affine e ha] at e1 e2 ⊢
        have e3 := stageOf_sub o h δ δ δk' δk i
        rw [sub_self] at e3
        have e4 : (δk' - δk) i = δk' i - δk i := rfl
        rw [e3, e4, Matrix.mulVec_sub, Matrix.mulVec_sub, Matrix.mulVec_zero, add_zero]
        calc _ = (Fx *ᵥ stageOf o h δ δk' i + Fk *ᵥ δk' i + Fu *ᵥ δu)
              - (Fx *ᵥ stageOf o h δ δk i + Fk *ᵥ δk i + Fu *ᵥ δu) := by abel
          _ = 0 := by rw [e1, e2, sub_self]
      subst hk
      exact ih τ h2

/-- **C77 (affine models).**  For an affine implicit ODE with solvable stage equations a call returns the exact
Runge-Kutta solution and its exact sensitivities, whatever the memory holds. -/
theorem C77_affine (hg : ExactLu g) (ha : AffineOde e Fx Fk Fu c) (inp : In d K) (m : Mem d K)
    (xN : Fin d.nx → K) (S : Matrix (Fin d.nx) (Fin (d.nx + d.nu)) K) (m' : Mem d K)
    (hc : call d lo e g inp m = some (xN, S, m')) (hid : inp.ident = true → inp.S = idSeed d K)
    {P : Pt d K} (hr : Regular (noT lo.o) (hOf lo inp) e inp.u P) :
    Exact (noT lo.o) (hOf lo inp) e inp.u (stored m' lo.num_steps) inp.x xN
    ∧ ∀ v, Sens (noT lo.o) (hOf lo inp) e inp.u (sndP v) (stored m' lo.num_steps) inp.x (inp.S *ᵥ v) (S *ᵥ v) := by
  have hz := (call_run lo e g hc).1
  obtain ⟨h1, h2⟩ := C77_newton lo e g hg inp m xN S m' hc hid (regAlong_affine e ha hz hr _ _)
  exact ⟨exact_affine e ha h1, fun v => sens_affine e ha (h2 v) _ _ (by simp [stored, predictions])⟩

/-- **C77 (affine models, history).**  … so the result does not depend on the calls made before. -/
theorem C77_affine_history (hg : ExactLu g) (ha : AffineOde e Fx Fk Fu c) (inp : In d K) (m₁ m₂ : Mem d K)
    (xN yN : Fin d.nx → K) (S R : Matrix (Fin d.nx) (Fin (d.nx + d.nu)) K) (m₁' m₂' : Mem d K)
    (h₁ : call d lo e g inp m₁ = some (xN, S, m₁')) (h₂ : call d lo e g inp m₂ = some (yN, R, m₂'))
    (hid : inp.ident = true → inp.S = idSeed d K)
    {P : Pt d K} (hr : Regular (noT lo.o) (hOf lo inp) e inp.u P) : xN = yN ∧ S = R := by
  have hz := (call_run lo e g h₁).1
  obtain ⟨a1, a2⟩ := C77_affine lo e g hg ha inp m₁ xN S m₁' h₁ hid hr
  obtain ⟨b1, b2⟩ := C77_affine lo e g hg ha inp m₂ yN R m₂' h₂ hid hr
  obtain ⟨c1, c2⟩ := exact_unique e ha hr a1 _ yN (by simp [stored]) b1
  refine ⟨c2.symm, ?_⟩
  rw [c1] at b2
  refine Matrix.toLin'.injective (LinearMap.ext fun v => ?_)
  rw [Matrix.toLin'_apply, Matrix.toLin'_apply]
  exact sens_unique e ha hr (b2 v) _ (a2 v)

end Affine

/-! ### The prediction -/

theorem step0 (hg : ExactLu g) (hn : lo.num_steps ≠ 0) (inp : In d K) (m m1 : Mem d K)
    (xN : Fin d.nx → K) (S : Matrix (Fin d.nx) (Fin (d.nx + d.nu)) K)
    (hc : call d lo e g inp m = some (xN, S, m1)) (hs : inp.S = idSeed d K)
    (hr : Regular (noT lo.o) (hOf lo inp) e inp.u (pt inp.x (predicted inp m 0))) :
    (m1.x = inp.x ∧ m1.u = inp.u) ∧ ∀ v i, tangent (noT lo.o) (hOf lo inp) e inp.u (pt inp.x (predicted inp m 0))
      (fstP v) (sndP v) (-(kB d (m1.D 0 *ᵥ v))) 0 i = 0 := by
  obtain ⟨hz, hrun⟩ := call_run lo e g hc
  have hm := (Prod.mk.inj (Prod.mk.inj hrun).2).2
  have hi := run_inputs e g lo.o (inp.T / lo.num_steps) inp lo.num_steps 0 ⟨m, inp.x, inp.x, 0, inp.S, 0⟩ hn
  rw [← hm] at hi
  refine ⟨hi, fun v i => ?_⟩
  obtain ⟨n, hn⟩ := Nat.exists_eq_succ_of_ne_zero hn
  have hex : kB d (expand d inp m 0) = predicted inp m 0 :=
    expand_eq inp ⟨fun _ => rfl, fun h0 => absurd rfl h0, fun _ _ => ⟨rfl, rfl⟩⟩
  have h5 := (lstep_spec lo.o (inp.T / lo.num_steps) e g inp hz hg 0 ⟨m, inp.x, inp.x, 0, inp.S, 0⟩ (sub_self _).symm
    (fun _ => hs) (by show Regular _ _ _ _ (pt inp.x (kB d (expand d inp m 0))); rw [hex]; exact hr)).2.2.2.2 v
  have hD : m1.D 0 = (lstep d lo.o (inp.T / lo.num_steps) e g inp 0 ⟨m, inp.x, inp.x, 0, inp.S, 0⟩).mem.D 0 := by
    rw [hm, hn]
    exact (run_mem_lt lo.o (inp.T / _) e g inp n 1 _ 0 (by omega)).2
  have := h5.1 i
  rw [← hD] at this
  show tangent _ _ _ _ (pt inp.x (predicted inp m 0)) _ _ _ _ _ = 0
  rw [← hex, ← Irk.idSeed_mulVec, ← hs]
  exact this

/-- **C77 (prediction).**  After a call with the identity as seed, the next call moves the stage values of the
first step by **minus** their derivative in the direction of the change of `(x, u)`; `δk` is that
derivative, at the point where the earlier call linearised. -/
theorem C77_prediction (hg : ExactLu g) (hn : lo.num_steps ≠ 0) (inp inp' : In d K) (m m1 : Mem d K)
    (xN : Fin d.nx → K) (S : Matrix (Fin d.nx) (Fin (d.nx + d.nu)) K)
    (hc : call d lo e g inp m = some (xN, S, m1)) (hs : inp.S = idSeed d K)
    (hr : Regular (noT lo.o) (hOf lo inp) e inp.u (pt inp.x (predicted inp m 0))) :
    ∃ δk, (∀ i, tangent (noT lo.o) (hOf lo inp) e inp.u (pt inp.x (predicted inp m 0)) (inp'.x - inp.x)
        (inp'.u - inp.u) δk 0 i = 0)
      ∧ predicted inp' m1 0 = kB d (m1.k 0) - δk := by
  obtain ⟨⟨i1, i2⟩, ht⟩ := step0 lo e g hg hn inp m m1 xN S hc hs hr
  refine ⟨-(kB d (m1.D 0 *ᵥ Irk.cat2 (inp'.x - inp.x) (inp'.u - inp.u))), fun i => ?_, ?_⟩
  · have := ht (Irk.cat2 (inp'.x - inp.x) (inp'.u - inp.u)) i
    rw [Irk.fst_cat2, Irk.snd_cat2] at this
    exact this
  · unfold predicted
    rw [if_pos rfl, i1, i2, sub_neg_eq_add]
    rfl

/-- **C77, the prediction is false.**  A first-order prediction would make the stage equations of an affine
model hold exactly: the stored values plus their derivative (`δk`) in the direction of the change solve the
stage equations of the first step at the new state and control.  The values the next call linearises at
violate those equations by twice as much as the stored values do without any prediction. -/
theorem C77_prediction_false (hg : ExactLu g) (hn : lo.num_steps ≠ 0) {Fx Fk : Matrix (Fin (d.nx + d.nz)) (Fin d.nx) K}
    {Fu : Matrix (Fin (d.nx + d.nz)) (Fin d.nu) K} {c : Fin (d.nx + d.nz) → K} (ha : AffineOde e Fx Fk Fu c)
    (inp inp' : In d K) (m m1 : Mem d K)
    (xN : Fin d.nx → K) (S : Matrix (Fin d.nx) (Fin (d.nx + d.nu)) K)
    (hc : call d lo e g inp m = some (xN, S, m1)) (hs : inp.S = idSeed d K)
    {P : Pt d K} (hr : Regular (noT lo.o) (hOf lo inp) e inp.u P) :
    (∃ δk, (∀ i, tangent (noT lo.o) (hOf lo inp) e inp.u P (inp'.x - inp.x) (inp'.u - inp.u) δk 0 i = 0)
      ∧ Solves (noT lo.o) (hOf lo inp) e inp'.u (pt inp'.x (kB d (m1.k 0) + δk)))
    ∧ ∀ i, atStage (noT lo.o) (hOf lo inp) inp'.u (pt inp'.x (predicted inp' m1 0)) i e.f
      = 2 * atStage (noT lo.o) (hOf lo inp) inp'.u (pt inp'.x (kB d (m1.k 0))) i e.f := by
  have hz := (call_run lo e g hc).1
  obtain ⟨δk, h1, h2⟩ := C77_prediction lo e g hg hn inp inp' m m1 xN S hc hs (regular_affine e ha hz hr _)
  have hsol : ∀ i, atStage (noT lo.o) (hOf lo inp) inp.u (pt inp.x (kB d (m1.k 0))) i e.f = 0 := by
    have := (C77_affine lo e g hg ha inp m xN S m1 hc (fun _ => hs) hr).1
    obtain ⟨n, hn⟩ := Nat.exists_eq_succ_of_ne_zero hn
    have hst : stored m1 lo.num_steps = kB d (m1.k 0) :: ((List.range n).map Nat.succ).map fun i => kB d (m1.k i) := by
      rw [hn, stored, List.range_succ_eq_map]; rfl
    rw [hst] at this
    cases this with
    | cons _ _ _ _ hs _ => exact hs
  have hA : ∀ (k : Stages d K) i, atStage (noT lo.o) (hOf lo inp) inp'.u (pt inp'.x k) i e.f
      = tangent (noT lo.o) (hOf lo inp) e inp.u P (inp'.x - inp.x) (inp'.u - inp.u) (k - kB d (m1.k 0)) 0 i := by
    intro k i
    rw [f_affine e ha _ _ inp.u inp'.u inp.x inp'.x (kB d (m1.k 0)) k P i, hsol i, zero_add]
  have h1' : ∀ i, tangent (noT lo.o) (hOf lo inp) e inp.u P (inp'.x - inp.x) (inp'.u - inp.u) δk 0 i = 0 := by
    intro i; rw [← h1 i, tangent_affine e ha, tangent_affine e ha]
  refine ⟨⟨δk, h1', fun i => ?_⟩, fun i => ?_⟩
  · rw [hA, add_sub_cancel_left]; exact h1' i
  · rw [hA, hA, h2, sub_self, sub_sub_cancel_left]
    have e1 := h1' i
    rw [Irk.tangent_split] at e1 ⊢
    rw [Irk.tangent_split (δk := 0)]
    have e2 := Irk.tangent_neg (noT lo.o) (hOf lo inp) e inp.u P δk 0 i
    rw [neg_zero] at e2
    have e3 : tangent (noT lo.o) (hOf lo inp) e inp.u P 0 0 (0 : Stages d K) 0 i = 0 := by
      rw [tangent_affine e ha]
      funext r
      simp [stageOf, mulVec, dotProduct]
    rw [e2, e3]
    funext r
    have := congrFun e1 r
    simp only [Pi.add_apply, Pi.neg_apply, Pi.mul_apply, Pi.ofNat_apply] at this ⊢
    linear_combination -this

end Call

/-! ### Examples -/

open Acados.Irk (dQ oQ eQ gQ exactQ)

/-- one step of size `T` with the tableau of the implicit Euler scheme -/
def loQ (n : Nat) : LOpts ℚ := ⟨oQ, n, 1, false, false, false, false⟩
/-- `ẋ = x` -/
def eL : Ext dQ ℚ where
  f x k _ _ _ := ![k 0 - x 0]
  fx _ _ _ _ _ := !![-1]
  fk _ _ _ _ _ := !![1]
  fu _ _ _ _ _ := 0
  fz _ _ _ _ _ := 0
  fp _ _ _ _ _ := 0
  hess _ _ _ _ _ _ := 0

theorem affineL : AffineOde eL (!![-1] : Matrix (Fin 1) (Fin 1) ℚ) (!![1] : Matrix (Fin 1) (Fin 1) ℚ) 0 0 where
  f x k u z t := by
    funext (i : Fin 1)
    obtain rfl : i = 0 := Subsingleton.elim i 0
    show k 0 - x 0 = ((!![-1] : Matrix (Fin 1) (Fin 1) ℚ) *ᵥ x) 0 + ((!![1] : Matrix (Fin 1) (Fin 1) ℚ) *ᵥ k) 0
      + ((0 : Matrix (Fin 1) (Fin 0) ℚ) *ᵥ u) 0 + 0
    simp [mulVec, dotProduct]
    ring
  fx _ _ _ _ _ := rfl
  fk _ _ _ _ _ := rfl
  fu _ _ _ _ _ := rfl

theorem regularL (u : Fin 0 → ℚ) (P : Pt dQ ℚ) : Regular (noT oQ) (1 / 2) eL u P := by
  intro δk δz hq
  refine ⟨?_, by funext i c; exact c.elim0⟩
  funext (i : Fin 1) (c : Fin 1)
  obtain rfl : i = 0 := Subsingleton.elim i 0
  obtain rfl : c = 0 := Subsingleton.elim c 0
  have := congrFun (hq 0) 0
  have h2 : -(1 / 2 * δk 0 0) + δk 0 0 = 0 := by
    have e1 : tangent (noT oQ) (1 / 2) eL u P 0 0 δk δz 0 0
        = -(1 / 2 * δk 0 0) + δk 0 0 := by
      show ((!![-1] : Matrix (Fin 1) (Fin 1) ℚ) *ᵥ stageOf (noT oQ) (1 / 2) (0 : Fin 1 → ℚ) δk (0 : Fin 1)) 0
        + ((!![1] : Matrix (Fin 1) (Fin 1) ℚ) *ᵥ δk 0) 0
        + ((0 : Matrix (Fin 1) (Fin 0) ℚ) *ᵥ δz 0) 0 + ((0 : Matrix (Fin 1) (Fin 0) ℚ) *ᵥ 0) 0 = _
      simp [mulVec, dotProduct, stageOf, noT, oQ]
    rw [← e1]; exact this
  show δk 0 0 = 0
  linarith

def inQ (x T : ℚ) : In dQ ℚ := ⟨![x], ![], idSeed dQ ℚ, true, T⟩

/-- two steps of size `1/2` of the implicit Euler scheme for `ẋ = x` from `x = 1` end at `4` -/
example : ((call dQ (loQ 2) eL gQ (inQ 1 1) (Mem.init dQ ℚ)).map (·.1)) = some ![4] := by decide +kernel

/-- … and this is the exact solution, for every memory -/
example (m : Mem dQ ℚ) (xN S m') (hc : call dQ (loQ 2) eL gQ (inQ 1 1) m = some (xN, S, m')) :
    Exact (noT oQ) (1 / 2) eL ![] (stored m' 2) ![1] xN := by
  have := (C77_affine (loQ 2) eL gQ exactQ affineL (inQ 1 1) m xN S m' hc (fun _ => rfl)
    (P := pt 0 0) (by show Regular (noT oQ) (1 / ((2 : ℕ) : ℚ)) eL _ _; rw [Nat.cast_ofNat]; exact regularL _ _)).1
  have e1 : hOf (loQ 2) (inQ 1 1) = 1 / 2 := by decide +kernel
  rw [e1] at this
  exact this

/-- after a call at `x = 1` with step size `1/2` the stage value is `2`; at `x = 2` the right one is `4`, the
prediction is `0` -/
example : ((call dQ (loQ 1) eL gQ (inQ 1 (1 / 2)) (Mem.init dQ ℚ)).map fun r =>
    (r.2.2.k 0 0, predicted (inQ 2 (1 / 2)) r.2.2 0 0 0)) = some (2, 0) := by decide +kernel

example (inp' : In dQ ℚ) (m m1 : Mem dQ ℚ) (xN S)
    (hc : call dQ (loQ 1) eL gQ (inQ 1 (1 / 2)) m = some (xN, S, m1)) (i) :
    atStage (noT oQ) (1 / 2) inp'.u (pt inp'.x (predicted inp' m1 0)) i eL.f
      = 2 * atStage (noT oQ) (1 / 2) inp'.u (pt inp'.x (kB dQ (m1.k 0))) i eL.f := by
  have e1 : hOf (loQ 1) (inQ 1 (1 / 2)) = 1 / 2 := by decide +kernel
  have := (C77_prediction_false (loQ 1) eL gQ exactQ (by decide) affineL (inQ 1 (1 / 2)) inp' m m1 xN S hc rfl
    (P := pt 0 0) (by rw [e1]; exact regularL _ _)).2 i
  rw [e1] at this
  exact this

/-- a solved step of `ẋ = x²` is kept: from `x = -2` with `h = 1` the stage value `4` solves `k = (k - 2)²`… -/
example : ((call dQ (loQ 1) eQ gQ (inQ (-2) 1) ⟨fun _ => fun _ => 4, fun _ => 0, ![-2], ![]⟩).map fun r =>
    (r.1, r.2.2.k 0 0)) = some (![2], 4) := by decide +kernel

/-- **C77, reset is false.**  Resetting the integrator memory does not restore the state of a new integrator:
the stage values are zeroed, but the stored derivative and the inputs of the last call are not, so the next
call predicts from them.  `ẋ = x²`, one implicit Euler step of size 1: after a call at `x = -2` and a reset, a
call at the equilibrium `x = 0` returns `64/55`; a new integrator returns `0`. -/
theorem C77_reset_false : ExactLu (d := dQ) gQ ∧ ∃ m1 : Mem dQ ℚ,
    (call dQ (loQ 1) eQ gQ (inQ (-2) 1) (Mem.init dQ ℚ)).map (·.2.2) = some m1
    ∧ (call dQ (loQ 1) eQ gQ (inQ 0 1) (m1.setToZero 1)).map (·.1) = some ![64 / 55]
    ∧ (call dQ (loQ 1) eQ gQ (inQ 0 1) (Mem.init dQ ℚ)).map (·.1) = some ![0] :=
  ⟨exactQ, ((call dQ (loQ 1) eQ gQ (inQ (-2) 1) (Mem.init dQ ℚ)).map (·.2.2)).get rfl, rfl,
    by decide +kernel, by decide +kernel⟩

theorem run_congr (o : Opts K) (h : K) (e : Ext d K) (g : Matrix (Fin (nK d)) (Fin (nK d)) K → Lu (Fin (nK d)) K)
    (inp : In d K) (n : Nat) : ∀ (ss : Nat) (st st' : St d K),
    (st.xn = st'.xn ∧ st.xnOut = st'.xnOut ∧ st.dxn = st'.dxn ∧ st.S = st'.S ∧ st.rG = st'.rG) →
    (n ≠ 0 → expand d inp st.mem ss = expand d inp st'.mem ss) →
    (∀ i, ss < i → i < ss + n → st.mem.k i = st'.mem.k i) →
    (run d o h e g inp n ss st).xnOut = (run d o h e g inp n ss st').xnOut
    ∧ (run d o h e g inp n ss st).S = (run d o h e g inp n ss st').S := by
  induction n with
  | zero => intro ss st st' hs _ _; exact ⟨hs.2.1, hs.2.2.2.1⟩
  | succ n ih =>
    intro ss st st' ⟨h1, h2, h3, h4, h5⟩ hx hk
    have hx := hx (by omega)
    have hk' : ∀ i, ss < i → i < ss + (n + 1) → (lstep d o h e g inp ss st).mem.k i = (lstep d o h e g inp ss st').mem.k i := by
      intro i hi hi'
      have e1 : ∀ s : St d K, (lstep d o h e g inp ss s).mem.k i = s.mem.k i := fun s => by
        simp [lstep, Function.update_of_ne (show i ≠ ss by omega)]
      rw [e1, e1]; exact hk i hi hi'
    refine ih (ss + 1) _ _ ?_ (fun hn => ?_) fun i hi hi' => hk' i (by omega) (by omega)
    · simp only [lstep, h1, h2, h3, h4, h5, hx, and_self]
    · have hw : ∀ s : St d K, dw d inp (lstep d o h e g inp ss s).mem = 0 := by
        intro s
        show Fin.append (inp.x - inp.x) (inp.u - inp.u) = 0
        rw [sub_self, sub_self]
        funext i
        refine Fin.addCases (fun i => ?_) (fun i => ?_) i <;> simp
      unfold expand
      rw [hw, hw, Matrix.mulVec_zero, Matrix.mulVec_zero, hk' (ss + 1) (by omega) (by omega)]

/-- **C77 (reset).**  A reset followed by a call with the state and control of the last call before the reset
gives the result of a new integrator. -/
theorem C77_reset_partial (lo : LOpts K) (e : Ext d K) (g : Matrix (Fin (nK d)) (Fin (nK d)) K → Lu (Fin (nK d)) K)
    (inp : In d K) (m : Mem d K) (hx : m.x = inp.x) (hu : m.u = inp.u) :
    (call d lo e g inp (m.setToZero lo.num_steps)).map (fun r => (r.1, r.2.1))
      = (call d lo e g inp (Mem.init d K)).map (fun r => (r.1, r.2.1)) := by
  have hk0 : ∀ i, i < lo.num_steps → (m.setToZero lo.num_steps).k i = 0 := fun i hi => if_pos hi
  have key := run_congr lo.o (inp.T / lo.num_steps) e g inp lo.num_steps 0
    ⟨m.setToZero lo.num_steps, inp.x, inp.x, 0, inp.S, 0⟩ ⟨Mem.init d K, inp.x, inp.x, 0, inp.S, 0⟩
    ⟨rfl, rfl, rfl, rfl, rfl⟩ (fun hn => by
      show (m.setToZero lo.num_steps).k 0 + m.D 0 *ᵥ Fin.append (inp.x - m.x) (inp.u - m.u) = 0 + 0 *ᵥ _
      have : Fin.append (inp.x - m.x) (inp.u - m.u) = 0 := by
        rw [hx, hu, sub_self, sub_self]
        funext i
        refine Fin.addCases (fun i => ?_) (fun i => ?_) i <;> simp
      rw [hk0 0 (by omega), this, Matrix.mulVec_zero, Matrix.zero_mulVec]) (fun i _ hi => hk0 i (by omega))
  unfold call
  split_ifs <;> first | rfl | exact congrArg some (Prod.ext key.1 key.2)

/-- the hypotheses are met after a call at the same point -/
example : ∃ m1 : Mem dQ ℚ, (call dQ (loQ 1) eQ gQ (inQ (-2) 1) (Mem.init dQ ℚ)).map (·.2.2) = some m1
    ∧ m1.x = (inQ (-2) 1).x ∧ m1.u = (inQ (-2) 1).u ∧ m1.k 0 0 = 4 / 5
    ∧ (call dQ (loQ 1) eQ gQ (inQ (-2) 1) (m1.setToZero 1)).map (·.1) = some ![-6 / 5] :=
  ⟨((call dQ (loQ 1) eQ gQ (inQ (-2) 1) (Mem.init dQ ℚ)).map (·.2.2)).get rfl, rfl, rfl, rfl, by decide +kernel,
    by decide +kernel⟩

end Acados.LiftedIrk
