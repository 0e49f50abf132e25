import Verif.Model.Dynamics
import Verif.Spec.Dynamics
import Verif.Model.Cost
import Mathlib.Algebra.BigOperators.Ring.Finset
import Mathlib.Tactic.Ring
import Mathlib.Tactic.NormNum
import Mathlib.Tactic.Linarith
/-!
# C74: the dynamics data of the QP are the linearisation of the integrator
-/
namespace Acados.Dyn
open Finset
set_option linter.unusedSectionVars false
variable {K : Type*} [Field K] {M : Type*}

/-! ### The integrator -/

/-- what the integrator is asked: state, control, identity forward seed in column-major order, adjoint seed supported on
the states -/
structure Asked (nx nu : Nat) (i : SimIn K) : Prop where
  id : i.identity = true
  seed : ∀ r < nx, ∀ c < nx + nu, i.Sforw (r + nx * c) = if r = c then 1 else 0

/-- contract of an integrator for the map `f` (the contents of C38, C64, C65, C68 to C71): next state and algebraic
variables always, the sensitivities that are switched on; the adjoint and Hessian are weighted with the adjoint seed -/
structure Correct (nx nu nz : Nat) (f : StepMap K) (sm : Sim K M) : Prop where
  val : ∀ o i m out, (∀ c < nx, (sm.evaluate o i m out).1.xn c = f.next i.x i.u c)
    ∧ ∀ c < nz, (sm.evaluate o i m out).1.zn c = f.alg i.x i.u c
  forw : ∀ o i m out, o.forw = true → Asked nx nu i → ∀ c < nx, ∀ k < nx + nu,
    (sm.evaluate o i m out).1.Sforw (c + nx * k) = f.jac i.x i.u c k
  alg : ∀ o i m out, o.forw = true → Asked nx nu i → ∀ c < nz, ∀ k < nx + nu,
    (sm.evaluate o i m out).1.Salg (c + nz * k) = f.zjac i.x i.u c k
  adj : ∀ o i m out, o.adj = true → (∀ k < nu, i.Sadj (nx + k) = 0) → ∀ k < nx + nu,
    (sm.evaluate o i m out).1.Sadj k = ∑ c ∈ range nx, f.jac i.x i.u c k * i.Sadj c
  hess : ∀ o i m out, o.hess = true → Asked nx nu i → (∀ k < nu, i.Sadj (nx + k) = 0) → ∀ k < nx + nu, ∀ l < nx + nu,
    (sm.evaluate o i m out).1.Shess (k + (nx + nu) * l) = ∑ c ∈ range nx, f.hess i.x i.u c k l * i.Sadj c

/-! ### Lemmas -/

theorem zero_fold (n : Nat) (a : Nat → K) (k : Nat) :
    (List.range n).foldl (fun a jj => Function.update a jj 0) a k = if k < n then 0 else a k := by
  induction n with
  | zero => simp
  | succ n ih =>
    rw [List.range_succ, List.foldl_append, List.foldl_cons, List.foldl_nil, Function.update_apply, ih]
    by_cases h : k = n
    · simp [h]
    · rw [if_neg h]
      by_cases h' : k < n
      · rw [if_pos h', if_pos (by omega)]
      · rw [if_neg h', if_neg (by omega)]

theorem diag_fold (n s : Nat) (a : Nat → K) (k : Nat) :
    (List.range n).foldl (fun a jj => Function.update a (jj * s) 1) a k
      = if ∃ jj < n, k = jj * s then 1 else a k := by
  induction n with
  | zero => simp
  | succ n ih =>
    rw [List.range_succ, List.foldl_append, List.foldl_cons, List.foldl_nil, Function.update_apply, ih]
    by_cases h : k = n * s
    · rw [if_pos h, if_pos ⟨n, by omega, h⟩]
    · rw [if_neg h]
      by_cases h' : ∃ jj < n, k = jj * s
      · obtain ⟨jj, hj, e⟩ := h'
        rw [if_pos ⟨jj, hj, e⟩, if_pos ⟨jj, by omega, e⟩]
      · rw [if_neg h', if_neg]
        rintro ⟨jj, hj, e⟩
        rcases Nat.lt_succ_iff_lt_or_eq.1 hj with hj | rfl
        · exact h' ⟨jj, hj, e⟩
        · exact h e

/-- the seed is the identity if the state dimension does not change -/
theorem seed_identity (d : Dims) (h1 : d.nx1 = d.nx) (a : Nat → K) :
    ∀ r < d.nx, ∀ c < d.nx + d.nu, seedForw d a (r + d.nx * c) = if r = c then 1 else 0 := by
  intro r hr c hc
  simp only [seedForw, diag_fold, zero_fold, h1]
  have hlt : r + d.nx * c < d.nx * (d.nx + d.nu) := by
    calc r + d.nx * c < d.nx + d.nx * c := by omega
      _ = d.nx * (c + 1) := by ring
      _ ≤ d.nx * (d.nx + d.nu) := Nat.mul_le_mul_left _ hc
  rw [if_pos hlt]
  by_cases h : r = c
  · rw [if_pos h, if_pos ⟨r, hr, by rw [← h]; ring⟩]
  · rw [if_neg h, if_neg]
    rintro ⟨jj, hj, e⟩
    have e' : r + d.nx * c = jj + d.nx * jj := by rw [e]; ring
    have h1 := congrArg (· % d.nx) e'
    have h2 := congrArg (· / d.nx) e'
    simp only [Nat.add_mul_mod_self_left, Nat.mod_eq_of_lt hr, Nat.mod_eq_of_lt hj] at h1
    rw [Nat.add_mul_div_left _ _ (by omega), Nat.add_mul_div_left _ _ (by omega), Nat.div_eq_of_lt hr,
      Nat.div_eq_of_lt hj] at h2
    omega

theorem seedAdj_lo (d : Dims) (pi a : Nat → K) (k : Nat) (h : k < d.nx1) : seedAdj d pi a k = pi k := by
  simp [seedAdj, unpack, h]

theorem seedAdj_hi (d : Dims) (h1 : d.nx1 = d.nx) (pi a : Nat → K) (k : Nat) (h : k < d.nu) :
    seedAdj d pi a (d.nx + k) = 0 := by
  unfold seedAdj unpack
  rw [if_neg (by omega), zero_fold, if_pos (by omega)]

theorem packAdj_apply (d : Dims) (v : Vars K) (S adj : Nat → K) (r : Nat) :
    packAdj d v S adj r = if r < d.nu + d.nx then - S (toXU d.nx d.nu r)
      else if r < d.nu + d.nx + d.nx1 then v.pi (r - (d.nu + d.nx)) else adj r := by
  unfold packAdj pack toXU
  simp only
  by_cases h1 : r < d.nu + d.nx
  · rw [if_pos h1, if_neg (by omega), if_pos h1]
    by_cases h2 : r < d.nu
    · rw [if_neg (by omega), if_pos (by omega), if_pos h2]
      simp
    · rw [if_pos (by omega), if_neg h2]
      simp
  · rw [if_neg h1]
    by_cases h2 : r < d.nu + d.nx + d.nx1
    · rw [if_pos (by omega), if_neg h1, if_pos h2]
    · rw [if_neg (by omega), if_neg h1, if_neg h2, if_neg (by omega), if_neg (by omega)]

theorem gemvAdj_apply (d : Dims) (v : Vars K) (B : Nat → Nat → K) (adj : Nat → K) (r : Nat) :
    gemvAdj d v B adj r = if r < d.nu + d.nx then - ∑ c ∈ range d.nx1, B r c * v.pi c
      else if r < d.nu + d.nx + d.nx1 then v.pi (r - (d.nu + d.nx)) else adj r := by
  unfold gemvAdj pack
  simp only
  by_cases h1 : r < d.nu + d.nx
  · rw [if_pos h1, if_neg (by omega), if_pos h1]
    simp
  · rw [if_neg h1]
    by_cases h2 : r < d.nu + d.nx + d.nx1
    · rw [if_pos (by omega), if_neg h1, if_pos h2]
    · rw [if_neg (by omega), if_neg h1, if_neg h2]

/-- state and control of a stage: the first `nu` entries are controls -/
def xOf (d : Dims) (v : Vars K) (k : Nat) : K := v.ux (d.nu + k)

/-- see `xOf` -/
def uOf (v : Vars K) (k : Nat) : K := v.ux k

theorem passGuess_simIn (sm : Sim K M) (m : Mem K M) : (passGuess sm m).simIn = m.simIn := by
  unfold passGuess; split <;> rfl

theorem passGuess_opts (sm : Sim K M) (m : Mem K M) : (passGuess sm m).opts = m.opts := by
  unfold passGuess; split <;> rfl

theorem passGuess_keep (sm : Sim K M) (m : Mem K M) : (passGuess sm m).BAbt = m.BAbt ∧ (passGuess sm m).adj = m.adj
    ∧ (passGuess sm m).zAlg = m.zAlg ∧ (passGuess sm m).dzduxt = m.dzduxt ∧ (passGuess sm m).RSQ = m.RSQ
    ∧ (passGuess sm m).hess = m.hess ∧ (passGuess sm m).simOut = m.simOut ∧ (passGuess sm m).fn = m.fn
    ∧ (passGuess sm m).setGuess = false := by
  unfold passGuess
  split
  · simp
  · next h => simp at h; simp [h]

/-! ### Theorems: continuous dynamics -/

/-- **C74**: after the linearisation of a shooting interval with equal state dimensions on both sides, the QP data are
the value and the derivatives of the map the integrator computes, at the current iterate: `BAbt` is the transposed
Jacobian in the order `(u, x)`, the residual is `x⁺ - x_next`, `z` and `∂z/∂(u,x)` are those of the map, the adjoint is
`-Jᵀ π` followed by `π` whether or not the integrator computes it, and with exact Hessian the block is the
multiplier-weighted second derivative — whatever the arrays contained before. -/
theorem C74_cont_linearisation_partial (d : Dims) (h1 : d.nx1 = d.nx) (o : Opts) (sm : Sim K M) (f : StepMap K)
    (hf : f.Local d.nx d.nu) (hs : Correct d.nx d.nu d.nz f sm) (v : Vars K) (m : Mem K M) (hforw : m.opts.forw = true) :
    let m' := contUpdate d o sm v m
    let x := xOf d v
    let u := uOf v
    (∀ r < d.nu + d.nx, ∀ c < d.nx1, m'.BAbt r c = f.jac x u c (toXU d.nx d.nu r))
    ∧ (∀ c < d.nx1, m'.fn c = f.next x u c - v.ux1 (d.nu1 + c))
    ∧ (∀ c < d.nz, m'.zAlg c = f.alg x u c)
    ∧ (∀ r < d.nu + d.nx, ∀ c < d.nz, m'.dzduxt r c = f.zjac x u c (toXU d.nx d.nu r))
    ∧ (o.computeAdj = true → (∀ r < d.nu + d.nx, m'.adj r = - ∑ c ∈ range d.nx1, f.jac x u c (toXU d.nx d.nu r) * v.pi c)
        ∧ ∀ c < d.nx1, m'.adj (d.nu + d.nx + c) = v.pi c)
    ∧ (o.computeHess = true → m.opts.hess = true → ∀ r < d.nu + d.nx, ∀ c ≤ r,
        m'.RSQ r c = ∑ k ∈ range d.nx1, f.hess x u k (toXU d.nx d.nu r) (toXU d.nx d.nu c) * v.pi k)
    ∧ (o.computeHess = false → m'.RSQ = m.RSQ) := by
  intro m' x u
  -- input of the integrator
  obtain ⟨i, hi⟩ : ∃ i : SimIn K, i = { passXU d v m.simIn with
      Sforw := seedForw d (passXU d v m.simIn).Sforw, identity := true
      Sadj := seedAdj d v.pi (passXU d v m.simIn).Sadj } := ⟨_, rfl⟩
  have hasked : Asked d.nx d.nu i := by
    subst hi
    exact ⟨rfl, seed_identity d h1 _⟩
  have hx : ∀ k < d.nx, i.x k = x k := by intro k hk; subst hi; simp [passXU, unpack, hk, x, xOf]
  have hu : ∀ k < d.nu, i.u k = u k := by intro k hk; subst hi; simp [passXU, unpack, hk, u, uOf]
  have hadj0 : ∀ k < d.nu, i.Sadj (d.nx + k) = 0 := by intro k hk; subst hi; exact seedAdj_hi d h1 _ _ k hk
  have hadj : ∀ k < d.nx, i.Sadj k = v.pi k := by intro k hk; subst hi; exact seedAdj_lo d _ _ k (by omega)
  obtain ⟨l1, l2, l3, l4, l5⟩ := hf i.x x i.u u hx hu
  -- output of the integrator
  obtain ⟨g, hg⟩ : ∃ g : Mem K M, g = passGuess sm { m with simIn := passXU d v m.simIn } := ⟨_, rfl⟩
  have hgk := passGuess_keep sm { m with simIn := passXU d v m.simIn }
  rw [← hg] at hgk
  obtain ⟨k1, k2, k3, k4, k5, k6, k7, k8, k9⟩ := hgk
  have hgi : g.simIn = passXU d v m.simIn := by rw [hg, passGuess_simIn]
  obtain ⟨out, hout⟩ : ∃ out, out = (sm.evaluate m.opts i g.sim g.simOut).1 := ⟨_, rfl⟩
  have hin : ({ g with simIn := { g.simIn with
      Sforw := seedForw d g.simIn.Sforw, identity := true, Sadj := seedAdj d v.pi g.simIn.Sadj } } : Mem K M).simIn = i := by
    rw [hi]; simp only [hgi]
  have e_out : (runSim sm m.opts { g with simIn := { g.simIn with
      Sforw := seedForw d g.simIn.Sforw, identity := true, Sadj := seedAdj d v.pi g.simIn.Sadj } }).simOut = out := by
    rw [hout]; simp only [runSim, hgi, hi]
  have hv := hs.val m.opts i g.sim g.simOut
  rw [← hout] at hv
  have hF := hs.forw m.opts i g.sim g.simOut hforw hasked
  rw [← hout] at hF
  have hZ := hs.alg m.opts i g.sim g.simOut hforw hasked
  rw [← hout] at hZ
  have hBA : ∀ r < d.nu + d.nx, ∀ c < d.nx1, m'.BAbt r c = f.jac x u c (toXU d.nx d.nu r) := by
    intro r hr c hc
    change packTran d.nx1 d.nx _ d.nx1 (packTran d.nx1 d.nu _ d.nx1 _ 0 0) d.nu 0 r c = _
    rw [← hg, e_out]
    unfold packTran toXU
    by_cases hru : r < d.nu
    · rw [if_neg (by omega), if_pos (by omega), if_pos hru, ← l3, ← hF c (by omega) (d.nx + r) (by omega)]
      rw [h1]; simp only [Nat.sub_zero]; ring_nf
    · rw [if_pos (by omega), if_neg hru, ← l3, ← hF c (by omega) (r - d.nu) (by omega)]
      congr 1
      rw [h1]; simp
  refine ⟨hBA, ?_, ?_, ?_, ?_, ?_, ?_⟩
  · intro c hc
    change gap d v _ _ c = _
    rw [← hg, e_out]
    unfold gap
    rw [if_pos hc, hv.1 c (by omega), l1]
    ring
  · intro c hc
    change pack d.nz _ _ 0 c = _
    rw [← hg, e_out]
    unfold pack
    rw [if_pos (by omega), Nat.sub_zero, hv.2 c hc, l2]
  · intro r hr c hc
    change packTran d.nz d.nx _ d.nz (packTran d.nz d.nu _ d.nz _ 0 0) d.nu 0 r c = _
    rw [← hg, e_out]
    unfold packTran toXU
    by_cases hru : r < d.nu
    · rw [if_neg (by omega), if_pos (by omega), if_pos hru, ← l4, ← hZ c hc (d.nx + r) (by omega)]
      simp only [Nat.sub_zero]; ring_nf
    · rw [if_pos (by omega), if_neg hru, ← l4, ← hZ c hc (r - d.nu) (by omega)]
      congr 1
  · intro hca
    have hm : m'.adj = if m.opts.adj then packAdj d v out.Sadj g.adj else gemvAdj d v m'.BAbt g.adj := by
      change (if o.computeAdj then _ else _) = _
      rw [if_pos hca, ← hg, e_out]
      change _ = if m.opts.adj then _ else gemvAdj d v (packTran d.nx1 d.nx _ d.nx1 (packTran d.nx1 d.nu _ d.nx1 _ 0 0) d.nu 0) _
      rw [← hg, e_out]
      rfl
    constructor
    · intro r hr
      rw [hm]
      split
      · next ha =>
        rw [packAdj_apply, if_pos hr]
        congr 1
        have hA := hs.adj m.opts i g.sim g.simOut ha hadj0 (toXU d.nx d.nu r) (by unfold toXU; split <;> omega)
        rw [← hout] at hA
        rw [hA, h1, l3]
        exact sum_congr rfl fun c hc => by rw [hadj c (mem_range.1 hc)]
      · rw [gemvAdj_apply, if_pos hr]
        congr 1
        exact sum_congr rfl fun c hc => by rw [hBA r hr c (mem_range.1 hc)]
    · intro c hc
      rw [hm]
      split
      · rw [packAdj_apply, if_neg (by omega), if_pos (by omega), Nat.add_sub_cancel_left]
      · rw [gemvAdj_apply, if_neg (by omega), if_pos (by omega), Nat.add_sub_cancel_left]
  · intro hch hh r hr c hcr
    have hH := hs.hess m.opts i g.sim g.simOut hh hasked hadj0
    rw [← hout] at hH
    have key : ∀ k < d.nx + d.nu, ∀ l < d.nx + d.nu, out.Shess (k + (d.nx + d.nu) * l)
        = ∑ q ∈ range d.nx1, f.hess x u q k l * v.pi q := by
      intro k hk l hl
      rw [hH k hk l hl, h1, l5]
      exact sum_congr rfl fun c hc => by rw [hadj c (mem_range.1 hc)]
    change (if o.computeHess then (fun r c => if r < d.nx + d.nu ∧ c < d.nx + d.nu then
      packMat d.nx d.nx _ (d.nx + d.nu) (packMat d.nx d.nu _ (d.nx + d.nu) (packMat d.nu d.nu _ (d.nx + d.nu) _ 0 0) d.nu 0)
        d.nu d.nu r c else _) else _) r c = _
    rw [if_pos hch, if_pos (by omega), ← hg, e_out]
    unfold packMat toXU
    by_cases hru : r < d.nu
    · rw [if_neg (by omega), if_neg (by omega), if_pos (by omega), if_pos hru, if_pos (by omega),
        ← key (d.nx + r) (by omega) (d.nx + c) (by omega)]
      simp only [Nat.sub_zero]; ring_nf
    · by_cases hcu : c < d.nu
      · rw [if_neg (by omega), if_pos (by omega), if_neg hru, if_pos hcu, ← key (r - d.nu) (by omega) (d.nx + c) (by omega)]
        simp only [Nat.sub_zero]; ring_nf
      · rw [if_pos (by omega), if_neg hru, if_neg hcu, ← key (r - d.nu) (by omega) (c - d.nu) (by omega)]
  · intro hch
    change (if o.computeHess then _ else (runSim sm m.opts _).RSQ) = _
    rw [hch]
    simp only [Bool.false_eq_true, if_false, runSim]
    rw [← hg]
    exact k5

/-- **C74** (function evaluation): evaluating the dynamics at a trial point gives `x⁺ - x_next` there and disturbs
neither the linearisation in the QP nor the options of the integrator. -/
theorem C74_cont_fun (d : Dims) (h1 : d.nx1 ≤ d.nx) (sm : Sim K M) (f : StepMap K) (hf : f.Local d.nx d.nu)
    (hs : Correct d.nx d.nu d.nz f sm) (v : Vars K) (m : Mem K M) :
    let m' := contFun d sm v m
    (∀ c < d.nx1, m'.fn c = f.next (xOf d v) (uOf v) c - v.ux1 (d.nu1 + c))
    ∧ m'.opts = m.opts ∧ m'.BAbt = m.BAbt ∧ m'.adj = m.adj ∧ m'.dzduxt = m.dzduxt ∧ m'.RSQ = m.RSQ := by
  intro m'
  obtain ⟨k1, k2, k3, k4, k5, k6, k7, k8, k9⟩ := passGuess_keep sm { m with simIn := passXU d v m.simIn }
  have ho : (passGuess sm { m with simIn := passXU d v m.simIn }).opts = m.opts := passGuess_opts _ _
  refine ⟨fun c hc => ?_, ?_, k1, k2, k4, k5⟩
  · change gap d v (sm.evaluate _ (passGuess sm { m with simIn := passXU d v m.simIn }).simIn _ _).1.xn _ c = _
    rw [passGuess_simIn]
    unfold gap
    rw [if_pos hc, (hs.val _ _ _ _).1 c (by omega),
      (hf _ (xOf d v) _ (uOf v) (fun k hk => by simp [passXU, unpack, hk, xOf])
        (fun k hk => by simp [passXU, unpack, hk, uOf])).1]
    ring
  · rw [← ho]; rfl

/-- **C74** (adjoint evaluation): the residual and adjoint evaluated without linearising are those of the full
linearisation; the Jacobian in the QP and the options are not disturbed. -/
theorem C74_cont_fun_adj_partial (d : Dims) (h1 : d.nx1 = d.nx) (sm : Sim K M) (f : StepMap K) (hf : f.Local d.nx d.nu)
    (hs : Correct d.nx d.nu d.nz f sm) (v : Vars K) (m : Mem K M) :
    let m' := contFunAdj d sm v m
    (∀ c < d.nx1, m'.fn c = f.next (xOf d v) (uOf v) c - v.ux1 (d.nu1 + c))
    ∧ (∀ r < d.nu + d.nx, m'.adj r = - ∑ c ∈ range d.nx1, f.jac (xOf d v) (uOf v) c (toXU d.nx d.nu r) * v.pi c)
    ∧ (∀ c < d.nx1, m'.adj (d.nu + d.nx + c) = v.pi c)
    ∧ m'.opts = m.opts ∧ m'.BAbt = m.BAbt ∧ m'.dzduxt = m.dzduxt ∧ m'.RSQ = m.RSQ := by
  intro m'
  obtain ⟨k1, k2, k3, k4, k5, k6, k7, k8, k9⟩ := passGuess_keep sm { m with simIn := passXU d v m.simIn }
  have ho : (passGuess sm { m with simIn := passXU d v m.simIn }).opts = m.opts := passGuess_opts _ _
  obtain ⟨l1, l2, l3, l4, l5⟩ := hf (passXU d v m.simIn).x (xOf d v) (passXU d v m.simIn).u (uOf v)
    (fun k hk => by simp [passXU, unpack, hk, xOf]) (fun k hk => by simp [passXU, unpack, hk, uOf])
  refine ⟨fun c hc => ?_, fun r hr => ?_, fun c hc => ?_, ?_, k1, k4, k5⟩
  · change gap d v (sm.evaluate _ { (passGuess sm { m with simIn := passXU d v m.simIn }).simIn with
      Sadj := _ } _ _).1.xn _ c = _
    rw [passGuess_simIn]
    unfold gap
    rw [if_pos hc, (hs.val _ _ _ _).1 c (by omega), l1]
    ring
  · change packAdj d v (sm.evaluate _ { (passGuess sm { m with simIn := passXU d v m.simIn }).simIn with
      Sadj := seedAdj d v.pi _ } _ _).1.Sadj _ r = _
    rw [passGuess_simIn, packAdj_apply, if_pos hr, hs.adj _ _ _ _ rfl (fun k hk => seedAdj_hi d h1 _ _ k hk) _
      (by unfold toXU; split <;> omega), h1, l3]
    congr 1
    refine sum_congr rfl fun c hc => ?_
    simp only
    rw [seedAdj_lo d _ _ c (by rw [h1]; exact mem_range.1 hc)]
  · change packAdj d v _ _ (d.nu + d.nx + c) = _
    rw [packAdj_apply, if_neg (by omega), if_pos (by omega), Nat.add_sub_cancel_left]
  · rw [← ho]; rfl

/-! ### Histories -/

/-- the operations the solver performs on the module -/
inductive Call (K : Type*)
  | update (v : Vars K)
  | value (v : Vars K)
  | valueAdj (v : Vars K)

/-- performing one operation -/
def Call.run (d : Dims) (o : Opts) (sm : Sim K M) (m : Mem K M) : Call K → Mem K M
  | .update v => contUpdate d o sm v m
  | .value v => contFun d sm v m
  | .valueAdj v => contFunAdj d sm v m

/-- what the integrator sees -/
inductive Ev
  | guess
  | eval
  deriving DecidableEq

/-- the same integrator with a log of its calls -/
def traced (sm : Sim K M) : Sim K (M × List Ev) where
  evaluate o i m out := let r := sm.evaluate o i m.1 out; (r.1, (r.2.1, m.2 ++ [.eval]), r.2.2)
  setGuess g m := (sm.setGuess g m.1, m.2 ++ [.guess])

theorem call_log (d : Dims) (o : Opts) (sm : Sim K M) (m : Mem K (M × List Ev)) (c : Call K) :
    (c.run d o (traced sm) m).sim.2 = m.sim.2 ++ (if m.setGuess then [.guess] else []) ++ [.eval]
    ∧ (c.run d o (traced sm) m).setGuess = false ∧ (c.run d o (traced sm) m).opts = m.opts := by
  cases c with
  | update v =>
    have hk := (passGuess_keep (traced sm) { m with simIn := passXU d v m.simIn }).2.2.2.2.2.2.2.2
    refine ⟨?_, hk, passGuess_opts (traced sm) { m with simIn := passXU d v m.simIn }⟩
    change ((passGuess (traced sm) { m with simIn := passXU d v m.simIn }).sim.2 ++ [Ev.eval]) = _
    unfold passGuess
    cases m.setGuess <;> simp [traced]
  | value v =>
    have hk := (passGuess_keep (traced sm) { m with simIn := passXU d v m.simIn }).2.2.2.2.2.2.2.2
    refine ⟨?_, hk, ?_⟩
    · change ((passGuess (traced sm) { m with simIn := passXU d v m.simIn }).sim.2 ++ [Ev.eval]) = _
      unfold passGuess
      cases m.setGuess <;> simp [traced]
    · exact passGuess_opts (traced sm) { m with simIn := passXU d v m.simIn }
  | valueAdj v =>
    have hk := (passGuess_keep (traced sm) { m with simIn := passXU d v m.simIn }).2.2.2.2.2.2.2.2
    refine ⟨?_, hk, ?_⟩
    · change ((passGuess (traced sm) { m with simIn := passXU d v m.simIn }).sim.2 ++ [Ev.eval]) = _
      unfold passGuess
      cases m.setGuess <;> simp [traced]
    · exact passGuess_opts (traced sm) { m with simIn := passXU d v m.simIn }

/-- **C74** (guess, options): whatever the solver does afterwards, a guess the user sets for the integrator reaches it
exactly once, before the next integration; afterwards the integrator continues from its own memory.  The sensitivity
options the user chose are the same at the end of every history. -/
theorem C74_guess_once (d : Dims) (o : Opts) (sm : Sim K M) (m : Mem K (M × List Ev)) (c : Call K) (cs : List (Call K)) :
    let m' := (c :: cs).foldl (Call.run d o (traced sm)) m
    m'.sim.2 = m.sim.2 ++ (if m.setGuess then [.guess] else []) ++ List.replicate (cs.length + 1) .eval
    ∧ m'.opts = m.opts := by
  have key : ∀ (cs : List (Call K)) (m : Mem K (M × List Ev)), m.setGuess = false →
      (cs.foldl (Call.run d o (traced sm)) m).sim.2 = m.sim.2 ++ List.replicate cs.length .eval
      ∧ (cs.foldl (Call.run d o (traced sm)) m).opts = m.opts := by
    intro cs
    induction cs with
    | nil => intro m _; simp
    | cons c cs ih =>
      intro m hm
      obtain ⟨a1, a2, a3⟩ := call_log d o sm m c
      obtain ⟨b1, b2⟩ := ih _ a2
      rw [List.foldl_cons]
      refine ⟨?_, b2.trans a3⟩
      rw [b1, a1, hm]
      simp [List.replicate_succ]
  obtain ⟨a1, a2, a3⟩ := call_log d o sm m c
  obtain ⟨b1, b2⟩ := key cs _ a2
  simp only [List.foldl_cons]
  refine ⟨?_, b2.trans a3⟩
  rw [b1, a1]
  simp [List.replicate_succ]

/-- logging does not change what is computed -/
theorem traced_same (sm : Sim K M) (o : SimOpts) (i : SimIn K) (m : M) (l : List Ev) (out : SimOut K) :
    ((traced sm).evaluate o i (m, l) out).1 = (sm.evaluate o i m out).1 := rfl

/-! ### What does not hold -/

/-- **C74** (failures are invisible): two integrators that compute the same arrays, one of them reporting a failure,
lead to the same QP data and the same module memory: no operation looks at the return value. -/
theorem C74_failure_ignored (d : Dims) (o : Opts) (sm sm' : Sim K M)
    (hg : sm.setGuess = sm'.setGuess)
    (he : ∀ o i m out, (sm.evaluate o i m out).1 = (sm'.evaluate o i m out).1
      ∧ (sm.evaluate o i m out).2.1 = (sm'.evaluate o i m out).2.1)
    (cs : List (Call K)) (m : Mem K M) :
    cs.foldl (Call.run d o sm) m = cs.foldl (Call.run d o sm') m := by
  have hr : ∀ o (m : Mem K M), runSim sm o m = runSim sm' o m := by
    intro o m; unfold runSim; simp only [(he _ _ _ _).1, (he _ _ _ _).2]
  have hp : ∀ (m : Mem K M), passGuess sm m = passGuess sm' m := by
    intro m; unfold passGuess; rw [hg]
  have : ∀ (m : Mem K M) c, Call.run d o sm m c = Call.run d o sm' m c := by
    intro m c
    cases c <;> simp only [Call.run, contUpdate, contFun, contFunAdj, hr, hp]
  induction cs generalizing m with
  | nil => rfl
  | cons c cs ih => rw [List.foldl_cons, List.foldl_cons, this, ih]

/-- an integrator that returns the values of a map and its derivatives in the layout of `sim_out` -/
def exact (nx nu nz : Nat) (f : StepMap K) : Sim K Unit where
  setGuess _ m := m
  evaluate o i m out := ({
    xn := f.next i.x i.u
    zn := f.alg i.x i.u
    Sforw := if o.forw then fun k => f.jac i.x i.u (k % nx) (k / nx) else out.Sforw
    Salg := if o.forw then fun k => f.zjac i.x i.u (k % nz) (k / nz) else out.Salg
    Sadj := if o.adj then fun k => ∑ c ∈ range nx, f.jac i.x i.u c k * i.Sadj c else out.Sadj
    Shess := if o.hess then
        fun k => ∑ c ∈ range nx, f.hess i.x i.u c (k % (nx + nu)) (k / (nx + nu)) * i.Sadj c
      else out.Shess }, m, 0)

theorem exact_correct (nx nu nz : Nat) (f : StepMap K) : Correct nx nu nz f (exact nx nu nz f) := by
  have dm : ∀ c n k : Nat, c < n → (c + n * k) % n = c ∧ (c + n * k) / n = k := by
    intro c n k h
    exact ⟨by rw [Nat.add_mul_mod_self_left, Nat.mod_eq_of_lt h],
      by rw [Nat.add_mul_div_left _ _ (by omega), Nat.div_eq_of_lt h, zero_add]⟩
  refine ⟨fun o i m out => ⟨fun _ _ => rfl, fun _ _ => rfl⟩, fun o i m out ho _ c hc k hk => ?_,
    fun o i m out ho _ c hc k hk => ?_, fun o i m out ho _ k hk => ?_, fun o i m out ho _ _ k hk l hl => ?_⟩
  · simp only [exact, ho, if_true, dm c nx k hc]
  · simp only [exact, ho, if_true, dm c nz k hc]
  · simp only [exact, ho, if_true]
  · simp only [exact, ho, if_true, dm k (nx + nu) l hk]

/-- a map with one state and one algebraic variable: `x⁺ = x + u`, `z = x` -/
def demoMap : StepMap ℚ where
  next x u k := if k = 0 then x 0 + u 0 else 0
  alg x _ k := if k = 0 then x 0 else 0
  jac _ _ c k := if c = 0 ∧ k ≤ 1 then 1 else 0
  zjac _ _ c k := if c = 0 ∧ k = 0 then 1 else 0
  hess _ _ _ _ _ := 0

theorem demoMap_local : demoMap.Local 1 1 := by
  intro x x' u u' hx hu
  have := hx 0 (by omega)
  have := hu 0 (by omega)
  simp [demoMap, *]

/-- some memory -/
def demoMem : Mem ℚ Unit where
  BAbt _ _ := 7
  fn _ := 7
  adj _ := 7
  dzduxt _ _ := 7
  zAlg _ := 7
  RSQ _ _ := 7
  hess _ _ := 7
  setGuess := true
  guess _ := 0
  simIn := ⟨fun _ => 7, fun _ => 7, fun _ => 7, false, fun _ => 7⟩
  simOut := ⟨fun _ => 7, fun _ => 7, fun _ => 7, fun _ => 7, fun _ => 7, fun _ => 7⟩
  sim := ()
  opts := ⟨true, true, true, 0⟩

/-- **C74** (line search with algebraic variables): evaluating the dynamics at a trial point does not update the
algebraic variables.  They remain those of the last linearisation, so the cost evaluated next (here `z²`, with the
external cost module) is not the cost of the trial point: it is `0` instead of `9`. -/
theorem C74_trial_z_false :
    let d : Dims := ⟨1, 1, 1, 1, 1⟩
    let at0 : Vars ℚ := ⟨fun _ => 0, fun _ => 0, fun _ => 0⟩
    let trial : Vars ℚ := ⟨fun _ => 3, fun _ => 0, fun _ => 0⟩
    let m1 := contUpdate d ⟨true, true⟩ (exact 1 1 1 demoMap) at0 demoMem
    let m2 := contFun d (exact 1 1 1 demoMap) trial m1
    let cost : Cost.ExtModel ℚ := ⟨fun _ => 0, fun _ => 0, 1, fun _ z => z 0 * z 0, fun _ _ _ => 0, fun _ _ _ _ => 0,
      fun _ _ _ _ => 0, fun _ _ _ _ => 0⟩
    let cd : Cost.Dims := ⟨1, 1, 1, 0, 0⟩
    m2.fn 0 = demoMap.next (xOf d trial) (uOf trial) 0
    ∧ Cost.extComputeFun cd cost ⟨trial.ux, m2.zAlg, m2.dzduxt⟩ = 0
    ∧ Cost.extComputeFun cd cost ⟨trial.ux, demoMap.alg (xOf d trial) (uOf trial), m2.dzduxt⟩ = 9 := by
  decide +kernel

/-- **C74** (changing state dimension): the loops that set the forward seed are right only if the next stage has the same
number of states.  With two states before and one after, the second column keeps what was there; with one state before
and two after, they write behind the seed array of `nx (nx + nu)` entries. -/
theorem C74_seed_false :
    (let d : Dims := ⟨2, 0, 0, 1, 0⟩
     let s := seedForw d (fun _ => (7 : ℚ))
     s (1 + 2 * 1) = 7)
    ∧ (let d : Dims := ⟨1, 0, 0, 2, 0⟩
       let s := seedForw d (fun _ => (7 : ℚ))
       d.nx * (d.nx + d.nu) ≤ 2 ∧ s 2 = 1) := by
  decide +kernel

/-! ### Theorems: discrete dynamics -/

/-- contract of the generated functions of a discrete dynamics model: value, Jacobian and Hessian of one map -/
structure DiscFun.For (nx nu nx1 : Nat) (g : DiscFun K) (f : StepMap K) : Prop where
  fn : ∀ x u, ∀ c < nx1, g.fn x u c = f.next x u c
  jac : ∀ x u, (∀ c < nx1, (g.fnJac x u).1 c = f.next x u c)
    ∧ ∀ r < nu + nx, ∀ c < nx1, (g.fnJac x u).2 r c = f.jac x u c (toXU nx nu r)
  hess : ∀ x u pi, (∀ c < nx1, (g.fnJacHess x u pi).1 c = f.next x u c)
    ∧ (∀ r < nu + nx, ∀ c < nx1, (g.fnJacHess x u pi).2.1 r c = f.jac x u c (toXU nx nu r))
    ∧ ∀ r < nu + nx, ∀ c < nu + nx, (g.fnJacHess x u pi).2.2 r c
        = ∑ k ∈ range nx1, f.hess x u k (toXU nx nu r) (toXU nx nu c) * pi k

/-- **C74** (discrete dynamics): the same for the discrete module, for all dimensions of the next stage, with and without
exact Hessian. -/
theorem C74_disc_linearisation (d : Dims) (o : Opts) (g : DiscFun K) (f : StepMap K) (hg : g.For d.nx d.nu d.nx1 f)
    (v : Vars K) (m : DMem K) :
    let m' := discUpdate d o g v m
    let x := xOf d v
    let u := uOf v
    (∀ r < d.nu + d.nx, ∀ c < d.nx1, m'.BAbt r c = f.jac x u c (toXU d.nx d.nu r))
    ∧ (∀ c < d.nx1, m'.fn c = f.next x u c - v.ux1 (d.nu1 + c))
    ∧ (o.computeAdj = true → (∀ r < d.nu + d.nx, m'.adj r = - ∑ c ∈ range d.nx1, f.jac x u c (toXU d.nx d.nu r) * v.pi c)
        ∧ ∀ c < d.nx1, m'.adj (d.nu + d.nx + c) = v.pi c)
    ∧ (o.computeHess = true → ∀ r < d.nu + d.nx, ∀ c < d.nu + d.nx,
        m'.RSQ r c = ∑ k ∈ range d.nx1, f.hess x u k (toXU d.nx d.nu r) (toXU d.nx d.nu c) * v.pi k)
    ∧ (o.computeHess = false → m'.RSQ = m.RSQ) := by
  intro m' x u
  have hB : ∀ r < d.nu + d.nx, ∀ c < d.nx1, m'.BAbt r c = f.jac x u c (toXU d.nx d.nu r) := by
    intro r hr c hc
    simp only [m', discUpdate]
    split
    · simp only [wrMat, if_pos (And.intro hr hc)]
      exact (hg.hess x u v.pi).2.1 r hr c hc
    · simp only [wrMat, if_pos (And.intro hr hc)]
      exact (hg.jac x u).2 r hr c hc
  refine ⟨hB, fun c hc => ?_, fun ha => ?_, fun hh r hr c hc => ?_, fun hh => ?_⟩
  · have h1 := (hg.hess x u v.pi).1 c hc
    have h2 := (hg.jac x u).1 c hc
    simp only [m', discUpdate]
    split
    · simp only [gap, if_pos hc, pack, Nat.zero_le, zero_add, true_and, Nat.sub_zero]
      rw [neg_one_mul, neg_add_eq_sub, ← h1]; rfl
    · simp only [gap, if_pos hc, pack, Nat.zero_le, zero_add, true_and, Nat.sub_zero]
      rw [neg_one_mul, neg_add_eq_sub, ← h2]; rfl
  · have hadj : m'.adj = gemvAdj d v m'.BAbt m.adj := by
      simp only [m', discUpdate, ha, if_true]
      cases o.computeHess <;> rfl
    rw [hadj]
    constructor
    · intro r hr
      rw [gemvAdj_apply, if_pos hr]
      congr 1
      exact sum_congr rfl fun c hc => by rw [hB r hr c (mem_range.1 hc)]
    · intro c hc
      rw [gemvAdj_apply, if_neg (by omega), if_pos (by omega), Nat.add_sub_cancel_left]
  · simp only [m', discUpdate, hh, if_true, wrMat, if_pos (And.intro hr hc)]
    exact (hg.hess x u v.pi).2.2 r hr c hc
  · simp [m', discUpdate, hh]

/-- **C74** (discrete dynamics, evaluations): value, and value with adjoint, agree with the linearisation at the same
point and leave the QP matrices alone. -/
theorem C74_disc_evaluations (d : Dims) (o : Opts) (g : DiscFun K) (f : StepMap K) (hg : g.For d.nx d.nu d.nx1 f)
    (v : Vars K) (m m₀ : DMem K) :
    (∀ c < d.nx1, (discFun d g v m).fn c = (discUpdate d o g v m₀).fn c)
    ∧ (∀ c < d.nx1, (discFunAdj d o g v m).fn c = (discUpdate d o g v m₀).fn c)
    ∧ (o.computeAdj = true → ∀ r < d.nu + d.nx + d.nx1, (discFunAdj d o g v m).adj r = (discUpdate d o g v m₀).adj r)
    ∧ (discFun d g v m).BAbt = m.BAbt ∧ (discFun d g v m).RSQ = m.RSQ ∧ (discFun d g v m).adj = m.adj
    ∧ (discFunAdj d o g v m).BAbt = m.BAbt ∧ (discFunAdj d o g v m).RSQ = m.RSQ := by
  obtain ⟨e1, e2, e3, e4, e5⟩ := C74_disc_linearisation d o g f hg v m₀
  refine ⟨fun c hc => ?_, fun c hc => ?_, fun ha r hr => ?_, rfl, rfl, rfl, rfl, rfl⟩
  · rw [e2 c hc]
    simp only [discFun, gap, if_pos hc, pack, Nat.zero_le, zero_add, true_and, Nat.sub_zero]
    have := hg.fn (xOf d v) (uOf v) c hc
    rw [neg_one_mul, neg_add_eq_sub, ← this]; rfl
  · rw [e2 c hc]
    simp only [discFunAdj, gap, if_pos hc, pack, Nat.zero_le, zero_add, true_and, Nat.sub_zero]
    have := (hg.jac (xOf d v) (uOf v)).1 c hc
    rw [neg_one_mul, neg_add_eq_sub, ← this]; rfl
  · obtain ⟨a1, a2⟩ := e3 ha
    simp only [discFunAdj, ha, if_true]
    rw [gemvAdj_apply]
    by_cases h : r < d.nu + d.nx
    · rw [if_pos h, a1 r h]
      congr 1
      refine sum_congr rfl fun c hc => ?_
      simp only [wrMat, if_pos (And.intro h (mem_range.1 hc))]
      rw [← (hg.jac (xOf d v) (uOf v)).2 r h c (mem_range.1 hc)]
      rfl
    · rw [if_neg h, if_pos hr]
      have := a2 (r - (d.nu + d.nx)) (by omega)
      rw [show d.nu + d.nx + (r - (d.nu + d.nx)) = r by omega] at this
      exact this.symm

/-! ### Non-vacuity -/

/-- two states, one control, with second derivatives: `x⁺ = (x₀ + u x₁, x₁²)`, `z = x₀ x₁` -/
def demoMap2 : StepMap ℚ where
  next x u c := if c = 0 then x 0 + u 0 * x 1 else if c = 1 then x 1 * x 1 else 0
  alg x _ c := if c = 0 then x 0 * x 1 else 0
  jac x u c k := if c = 0 then (if k = 0 then 1 else if k = 1 then u 0 else if k = 2 then x 1 else 0)
    else if c = 1 ∧ k = 1 then 2 * x 1 else 0
  zjac x _ c k := if c = 0 then (if k = 0 then x 1 else if k = 1 then x 0 else 0) else 0
  hess _ _ c k l := if c = 0 ∧ (k = 1 ∧ l = 2 ∨ k = 2 ∧ l = 1) then 1 else if c = 1 ∧ k = 1 ∧ l = 1 then 2 else 0

theorem demoMap2_local : demoMap2.Local 2 1 := by
  intro x x' u u' hx hu
  have := hx 0 (by omega)
  have := hx 1 (by omega)
  have := hu 0 (by omega)
  simp [demoMap2, *]

/-- the hypotheses are met by a concrete integrator; stale memory everywhere, and the data come out right -/
example :
    let d : Dims := ⟨2, 1, 1, 2, 1⟩
    let v : Vars ℚ := ⟨fun k => k + 2, fun k => 10 * k, fun k => k + 1⟩
    let m' := contUpdate d ⟨true, true⟩ (exact 2 1 1 demoMap2) v demoMem
    d.nx1 = d.nx ∧ demoMem.opts.forw = true
    ∧ m'.BAbt 0 0 = 4 ∧ m'.BAbt 1 0 = 1 ∧ m'.BAbt 2 0 = 2 ∧ m'.BAbt 2 1 = 8
    ∧ m'.fn 0 = 3 + 2 * 4 - 10 ∧ m'.zAlg 0 = 12 ∧ m'.adj 0 = -4 ∧ m'.adj 2 = -(2 + 8 * 2)
    ∧ m'.RSQ 2 0 = 1 ∧ m'.RSQ 2 2 = 4 ∧ m'.setGuess = false := by
  decide +kernel

example : Correct 2 1 1 demoMap2 (exact 2 1 1 demoMap2) := exact_correct _ _ _ _

end Acados.Dyn
