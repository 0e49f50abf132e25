import Verif.Model.IrkAlg
import Verif.Spec.IrkAlg
import Verif.Props.Irk
/-!
# C71: algebraic variables and their sensitivities returned by the IRK integrator
-/
namespace Acados.Irk
open Matrix
open Acados.Gnsf (Lu IsLu solveV solveM)
set_option linter.unusedSectionVars false
variable {K : Type*} [Field K] [LinearOrder K]

/-! ### Neville's algorithm -/

theorem nevRow_at (xx : K) (n : Nat) (x : Nat → K) (i : Nat) (Q : Nat → K) (k : Nat) :
    nevRow xx n x i Q k = if k < i then
      ((xx - x k) * Q (k + 1) - (xx - x (k + n - i + 1)) * Q k) / (x (k + n - i + 1) - x k) else Q k := by
  have key : ∀ m, m ≤ i → ∀ k, loop m (fun j Q => Function.update Q j
      (((xx - x j) * Q (j + 1) - (xx - x (j + n - i + 1)) * Q j) / (x (j + n - i + 1) - x j))) Q k
      = if k < m then
        ((xx - x k) * Q (k + 1) - (xx - x (k + n - i + 1)) * Q k) / (x (k + n - i + 1) - x k) else Q k := by
    intro m
    induction m with
    | zero => intro _ k; simp [loop]
    | succ m ih =>
      intro hm k
      rw [loop_succ]
      have ih := ih (by omega)
      by_cases hk : k = m
      · subst hk
        rw [Function.update_self, ih, ih, if_neg (by omega), if_neg (by omega), if_pos (by omega)]
      · rw [Function.update_of_ne hk, ih]
        by_cases h2 : k < m
        · rw [if_pos h2, if_pos (by omega)]
        · rw [if_neg h2, if_neg (by omega)]
  exact key i le_rfl k

theorem neville_step {x r : Nat → K} {j m : Nat} (xx : K)
    (hx : ∀ a b, j ≤ a → a ≤ j + (m + 1) → j ≤ b → b ≤ j + (m + 1) → x a = x b → a = b) :
    (Lagrange.interpolate (Finset.Icc j (j + (m + 1))) x r).eval xx
      = ((xx - x j) * (Lagrange.interpolate (Finset.Icc (j + 1) (j + 1 + m)) x r).eval xx
        - (xx - x (j + m + 1)) * (Lagrange.interpolate (Finset.Icc j (j + m)) x r).eval xx)
        / (x (j + m + 1) - x j) := by
  have hinj : Set.InjOn x (Finset.Icc j (j + (m + 1)) : Finset Nat) := by
    intro a ha b hb hab
    simp only [Finset.coe_Icc, Set.mem_Icc] at ha hb
    exact hx a b ha.1 ha.2 hb.1 hb.2 hab
  have hne : x (j + m + 1) - x j ≠ 0 := by
    intro h0
    have := hx (j + m + 1) j (by omega) (by omega) le_rfl (by omega) (sub_eq_zero.mp h0)
    omega
  rw [Lagrange.interpolate_eq_add_interpolate_erase (i := j) (j := j + m + 1) r hinj
    (by simp) (by simp; omega) (by omega)]
  have e1 : (Finset.Icc j (j + (m + 1))).erase (j + m + 1) = Finset.Icc j (j + m) := by
    ext a; simp only [Finset.mem_erase, Finset.mem_Icc]; omega
  have e2 : (Finset.Icc j (j + (m + 1))).erase j = Finset.Icc (j + 1) (j + 1 + m) := by
    ext a; simp only [Finset.mem_erase, Finset.mem_Icc]; omega
  rw [e1, e2]
  simp only [Polynomial.eval_add, Polynomial.eval_mul, Lagrange.basisDivisor, Polynomial.eval_C,
    Polynomial.eval_sub, Polynomial.eval_X]
  have hne' : x j - x (j + m + 1) ≠ 0 := fun h0 => hne (by linear_combination -h0)
  have hi : (x j - x (j + m + 1))⁻¹ = -(x (j + m + 1) - x j)⁻¹ := by
    rw [← neg_sub, inv_neg]
  rw [hi, div_eq_mul_inv]
  ring

theorem neville_eq (xx : K) (n : Nat) (x Q : Nat → K)
    (hx : ∀ a b, a ≤ n → b ≤ n → x a = x b → a = b) :
    neville xx n x Q = (Lagrange.interpolate (Finset.Icc 0 n) x Q).eval xx := by
  have key : ∀ m, m ≤ n → ∀ j, j + m ≤ n →
      loop m (fun m Q => nevRow xx n x (n - m) Q) Q j
        = (Lagrange.interpolate (Finset.Icc j (j + m)) x Q).eval xx := by
    intro m
    induction m with
    | zero =>
      intro _ j _
      simp only [loop, List.range_zero, List.foldl_nil, Nat.add_zero, Finset.Icc_self,
        Lagrange.interpolate_singleton, Polynomial.eval_C]
    | succ m ih =>
      intro hm j hj
      rw [loop_succ, nevRow_at, if_pos (by omega), ih (by omega) j (by omega), ih (by omega) (j + 1) (by omega)]
      have e : j + n - (n - m) + 1 = j + m + 1 := by omega
      rw [e, neville_step xx (fun a b _ ha _ hb hab => hx a b (by omega) (by omega) hab)]
  have := key n le_rfl 0 (by omega)
  rw [Nat.zero_add] at this
  exact this

/-- **C71 (interpolation).**  For distinct nodes the routine returns the value of the interpolating
polynomial. -/
theorem C71_neville (xx : K) (n : Nat) (x Q : Nat → K) (hx : ∀ a b, a ≤ n → b ≤ n → x a = x b → a = b) :
    Interp (fun i : Fin (n + 1) => x i.val) (fun i => Q i.val) xx (neville xx n x Q) := by
  have hinj : Set.InjOn x (Finset.Icc 0 n : Finset Nat) := by
    intro a ha b hb hab
    simp only [Finset.coe_Icc, Set.mem_Icc] at ha hb
    exact hx a b ha.2 hb.2 hab
  refine ⟨Lagrange.interpolate (Finset.Icc 0 n) x Q, ?_, fun i => ?_, (neville_eq xx n x Q hx).symm⟩
  · have := Lagrange.degree_interpolate_lt Q hinj
    simpa using this
  · exact Lagrange.eval_interpolate_at_node Q hinj (by simp; omega)

/-- the interpolated value is unique -/
theorem C71_interp_unique {n : Nat} (c y : Fin n → K) (hc : Function.Injective c) (xx v v' : K)
    (h1 : Interp c y xx v) (h2 : Interp c y xx v') : v = v' := by
  obtain ⟨p, hp, hpy, rfl⟩ := h1
  obtain ⟨q, hq, hqy, rfl⟩ := h2
  have : p = q := Polynomial.eq_of_degrees_lt_of_eval_index_eq (v := c) Finset.univ (hc.injOn)
    (by simpa using hp) (by simpa using hq) (fun i _ => (hpy i).trans (hqy i).symm)
  rw [this]

theorem interp_neg {n : Nat} {c y : Fin n → K} {xx v : K} (h1 : Interp c y xx v) :
    Interp c (fun i => - y i) xx (-v) := by
  obtain ⟨p, hp, hpy, rfl⟩ := h1
  refine ⟨-p, by rwa [Polynomial.degree_neg], fun i => by rw [Polynomial.eval_neg, hpy], ?_⟩
  rw [Polynomial.eval_neg]

theorem interp_sum {n m : Nat} {c : Fin n → K} {y : Fin m → Fin n → K} {xx : K} {v : Fin m → K} (w : Fin m → K)
    (h1 : ∀ j, Interp c (y j) xx (v j)) : Interp c (fun i => ∑ j, y j i * w j) xx (∑ j, v j * w j) := by
  choose p hp hpy hv using h1
  refine ⟨∑ j, w j • p j, ?_, fun i => ?_, ?_⟩
  · refine lt_of_le_of_lt (Polynomial.degree_sum_le _ _) ?_
    rw [Finset.sup_lt_iff]
    · intro j _
      refine lt_of_le_of_lt ?_ (hp j)
      exact Polynomial.degree_smul_le _ _
    · exact WithBot.bot_lt_coe _
  · rw [Polynomial.eval_finsetSum]
    exact Finset.sum_congr rfl fun j _ => by rw [Polynomial.eval_smul, hpy, smul_eq_mul, mul_comm]
  · rw [Polynomial.eval_finsetSum]
    exact Finset.sum_congr rfl fun j _ => by rw [Polynomial.eval_smul, hv, smul_eq_mul, mul_comm]

section Out
variable {d : Dims} (o : Opts K) (h t0 : K) (e : Ext d K) (u : Fin d.nu → K)
variable (g : Matrix (Fin (nK d)) (Fin (nK d)) K → Lu (Fin (nK d)) K)

/-- the nodes `c_vec` of the tableau are distinct -/
def Nodes (d : Dims) (o : Opts K) : Prop := Function.Injective (fun i : Fin d.s => o.c_vec i.val)

theorem nev_stage (hs : 0 < d.s) (hc : Nodes d o) (Q : Nat → K) :
    Interp (fun i : Fin d.s => o.c_vec i.val) (fun i => Q i.val) 0 (neville 0 (d.s - 1) o.c_vec Q) := by
  have := C71_neville 0 (d.s - 1) o.c_vec Q (fun a b ha hb hab => by
    have := @hc ⟨a, by omega⟩ ⟨b, by omega⟩ hab
    exact congrArg Fin.val this)
  obtain ⟨p, hp, hpy, hv⟩ := this
  have e1 : d.s - 1 + 1 = d.s := by omega
  exact ⟨p, by rwa [e1] at hp, fun i => hpy ⟨i.val, by omega⟩, hv⟩

theorem rd_z (k : Fin (nK d) → K) (j : Fin d.s) (i : Fin d.nz) :
    rd k (d.nx * d.s + d.nz * j.val + i.val) = zB d k j i := by
  have e1 : d.nx * d.s + d.nz * j.val + i.val = d.s * d.nx + j.val * d.nz + i.val := by ring
  rw [e1]
  exact rd_lt _ _ _

theorem rd_k (k : Fin (nK d) → K) (j : Fin d.s) (i : Fin d.nx) :
    rd k (d.nx * j.val + i.val) = kB d k j i := by
  have e1 : d.nx * j.val + i.val = j.val * d.nx + i.val := by ring
  rw [e1]
  exact rd_lt _ _ _

/-- **C71 (algebraic variables).**  The returned `z` is, componentwise, the value at the beginning of the
first step of the polynomial of degree less than `ns` through the stage values `z_1, …, z_ns`. -/
theorem C71_z (hs : 0 < d.s) (hc : Nodes d o) (k : Fin (nK d) → K) (i : Fin d.nz) :
    Interp (fun j : Fin d.s => o.c_vec j.val) (fun j => zB d k j i) 0 (zOut d o k i) := by
  have := nev_stage (d := d) o hs hc (fun jj => rd k (d.nx * d.s + d.nz * jj + i.val))
  simp only [rd_z] at this
  exact this

/-- **C71 (algebraic sensitivities).**  The returned sensitivity matrix applied to a direction is, component
by component, the same interpolation of the stage tangents `δz_1, …, δz_ns` of the linearised first step. -/
theorem C71_sens (hg : ExactLu g) (hs : 0 < d.s) (hc : Nodes d o) (ident : Bool) (x : Fin d.nx → K)
    (k : Fin (nK d) → K) (w : Matrix (Fin (nK d)) (Fin (d.nx + d.nu)) K)
    (S : Matrix (Fin d.nx) (Fin (d.nx + d.nu)) K) (hid : ident = true → S = idSeed d K)
    (hr : Regular o h e u ⟨x, kB d k, zB d k, t0⟩)
    (v : Fin (d.nx + d.nu) → K) (δk : Fin d.s → Fin d.nx → K) (δz : Fin d.s → Fin d.nz → K) (δx' : Fin d.nx → K)
    (hl : LinStep o h e u ⟨x, kB d k, zB d k, t0⟩ 0 (S *ᵥ v) (sndP v) δk δz δx') (i : Fin d.nz) :
    Interp (fun j : Fin d.s => o.c_vec j.val) (fun j => δz j i) 0
      ((sAlg d o (dKdxu d o h t0 e u g 0 ident x k w S) *ᵥ v) i) := by
  have hpt : ptOf d 0 h t0 x k = ⟨x, kB d k, zB d k, t0⟩ := by simp [ptOf]
  have hu : δz = zB d (-(dKdxu d o h t0 e u g 0 ident x k w S *ᵥ v)) := by
    have h1 := hr (δk - kB d (-(dKdxu d o h t0 e u g 0 ident x k w S *ᵥ v)))
      (δz - zB d (-(dKdxu d o h t0 e u g 0 ident x k w S *ᵥ v))) (fun i => by
        rw [tangent_sub o h e u _ (S *ᵥ v) (sndP v)]
        have a := hl.eqs i
        have b := dKdxu_lin o h t0 e u g hg 0 ident x k (by rw [hpt]; exact hr) w S hid v i
        rw [Pi.zero_apply, add_zero] at a
        rw [hpt] at b
        rw [a, b, sub_zero])
    exact sub_eq_zero.mp h1.2
  set D := dKdxu d o h t0 e u g 0 ident x k w S with hD
  have hrow : ∀ c : Fin (d.nx + d.nu), Interp (fun j : Fin d.s => o.c_vec j.val)
      (fun j => - zB d (fun a => D a c) j i) 0 (sAlg d o D i c) := by
    intro c
    have := interp_neg (nev_stage (d := d) o hs hc (fun kk => rd2 D (d.nx * d.s + kk * d.nz + i.val) c.val))
    refine (congrArg (fun y => Interp _ y 0 _) ?_).mp this
    funext j
    have hz := rd_z (d := d) (fun a => D a c) j i
    rw [← hz]
    congr 1
    have hlt : d.nx * d.s + j.val * d.nz + i.val < nK d := by
      have h1 : (j.val + 1) * d.nz ≤ d.s * d.nz := Nat.mul_le_mul_right _ j.isLt
      have : (d.nx + d.nz) * d.s = d.nx * d.s + d.s * d.nz := by ring
      have : (j.val + 1) * d.nz = j.val * d.nz + d.nz := by ring
      have := i.isLt
      unfold nK; omega
    have e1 : d.nx * d.s + d.nz * j.val + i.val = d.nx * d.s + j.val * d.nz + i.val := by ring
    rw [e1, rd_lt _ _ hlt]
    simp only [rd2, hlt, c.isLt, and_self, dite_true]
  have := interp_sum v hrow
  refine (congrArg (fun y => Interp _ y 0 _) ?_).mp this
  funext j
  rw [hu]
  simp only [zB, Pi.neg_apply, mulVec, dotProduct]
  rw [← Finset.sum_neg_distrib]
  exact Finset.sum_congr rfl fun c _ => by ring

end Out

/-! ### `exact_z_output` -/

section Ex
variable {d : Dims} (o : Opts K) (t0 : K) (e : Ext d K) (u : Fin d.nu → K)
variable (g1 : Matrix (Fin (d.nx + d.nz)) (Fin (d.nx + d.nz)) K → Lu (Fin (d.nx + d.nz)) K)

/-- two matrices copied side by side -/
theorem twoCols {m n q : Nat} (A : Matrix (Fin m) (Fin n) K) (B : Matrix (Fin m) (Fin q) K)
    (w : Matrix (Fin m) (Fin (n + q)) K) (v : Fin (n + q) → K) :
    gecpsc m q 1 B 0 0 (gecpsc m n 1 A 0 0 w 0 0) 0 n *ᵥ v = A *ᵥ fstP v + B *ᵥ sndP v := by
  funext r
  simp only [mulVec, dotProduct, Fin.sum_univ_add, Pi.add_apply]
  have hr := r.isLt
  congr 1
  · refine Finset.sum_congr rfl fun c _ => ?_
    have hc := c.isLt
    rw [gecpsc_apply_out _ _ _ _ _ _ _ _ _ _ _ (by simp), gecpsc_apply_in _ _ _ _ _ _ _ _ _ _ _ (by simp) (by simp)]
    simp only [Nat.sub_zero, Nat.zero_add, Fin.val_castAdd, one_mul]
    rw [rd2_lt _ _ _ hr hc]; rfl
  · refine Finset.sum_congr rfl fun c _ => ?_
    have hc := c.isLt
    rw [gecpsc_apply_in _ _ _ _ _ _ _ _ _ _ _ (by simp) (by simp)]
    simp only [Nat.sub_zero, Nat.zero_add, Fin.val_natAdd, one_mul, Nat.add_sub_cancel_left]
    rw [rd2_lt _ _ _ hr hc]; rfl

theorem dfdxdotz_mulVec (x xdot : Fin d.nx → K) (z : Fin d.nz → K)
    (w : Matrix (Fin (d.nx + d.nz)) (Fin (d.nx + d.nz)) K) (v : Fin (d.nx + d.nz) → K) :
    dfdxdotz d t0 e u x xdot z w *ᵥ v = e.fk x xdot u z t0 *ᵥ fstP v + e.fz x xdot u z t0 *ᵥ sndP v :=
  twoCols _ _ _ _

/-- derivative and algebraic variables are locally determined by state and control at this point -/
def Regular0 (x xdot : Fin d.nx → K) (z : Fin d.nz → K) : Prop :=
  ∀ a b, e.fk x xdot u z t0 *ᵥ a + e.fz x xdot u z t0 *ᵥ b = 0 → a = 0 ∧ b = 0

theorem dfdxdotz_isUnit {x xdot : Fin d.nx → K} {z : Fin d.nz → K} (hr : Regular0 t0 e u x xdot z)
    (w : Matrix (Fin (d.nx + d.nz)) (Fin (d.nx + d.nz)) K) : IsUnit (dfdxdotz d t0 e u x xdot z w) := by
  rw [← Matrix.mulVec_injective_iff_isUnit]
  have hz : ∀ v, dfdxdotz d t0 e u x xdot z w *ᵥ v = 0 → v = 0 := by
    intro v hv
    rw [dfdxdotz_mulVec] at hv
    obtain ⟨h1, h2⟩ := hr _ _ hv
    rw [← cat2_eta v, h1, h2]
    funext i
    refine Fin.addCases (fun i => ?_) (fun i => ?_) i
    · simp [cat2]
    · simp [cat2]
  intro a b hab
  have : dfdxdotz d t0 e u x xdot z w *ᵥ (a - b) = 0 := by
    rw [Matrix.mulVec_sub]; exact sub_eq_zero.mpr hab
  exact sub_eq_zero.mp (hz _ this)

theorem exIter_zn (x : Fin d.nx → K) (w : Matrix (Fin (d.nx + d.nz)) (Fin (d.nx + d.nz)) K) (ii : Nat)
    (st : ExSt d K) (hf : ii = 0 ∨ o.jac_reuse = false) :
    (exIter d o t0 e u g1 w x ii st).zn = st.zn - sndP (solveV (g1 (dfdxdotz d t0 e u x st.xdot st.zn w))
      (e.f x st.xdot u st.zn t0)) := by
  have hb : (ii == 0 || !o.jac_reuse) = true := by
    rcases hf with hf | hf <;> simp [hf]
  simp only [exIter, hb, if_true]
  congr 1
  funext j
  exact rd_lt _ _ _

/-- **C71 (exact output, affine models).**  With `exact_z_output`, for a model affine in state, derivative
and algebraic variables: if the Jacobian is not reused (or only one iteration is made), the returned `z`
satisfies the model equations at the initial state, with some state derivative. -/
theorem C71_exact_affine_partial (hg : ∀ M, IsUnit M → IsLu M (g1 M))
    {Fx Fk : Matrix (Fin (d.nx + d.nz)) (Fin d.nx) K}
    {Fz : Matrix (Fin (d.nx + d.nz)) (Fin d.nz) K} {c : K → Fin (d.nx + d.nz) → K} (ha : Affine e u Fx Fk Fz c)
    (hr : ∀ a b, Fk *ᵥ a + Fz *ᵥ b = 0 → a = 0 ∧ b = 0)
    (hn : (o.jac_reuse = false ∧ o.newton_iter ≠ 0) ∨ o.newton_iter = 1)
    (w : Matrix (Fin (d.nx + d.nz)) (Fin (d.nx + d.nz)) K) (x : Fin d.nx → K) (k : Fin (nK d) → K)
    (rg : Fin (d.nx + d.nz) → K) (lu : Lu (Fin (d.nx + d.nz)) K) :
    ∃ xdot, e.f x xdot u (exRun d o t0 e u g1 w x k rg lu).zn t0 = 0 := by
  have one : ∀ ii (st : ExSt d K), (ii = 0 ∨ o.jac_reuse = false) →
      ∃ xdot, e.f x xdot u (exIter d o t0 e u g1 w x ii st).zn t0 = 0 := by
    intro ii st hf
    rw [exIter_zn o t0 e u g1 x w ii st hf]
    set M := dfdxdotz d t0 e u x st.xdot st.zn w with hM
    have hu : IsUnit M := dfdxdotz_isUnit t0 e u (fun a b hab => hr a b (by
      rwa [ha.fk, ha.fz] at hab)) w
    have hs := Acados.Gnsf.mulVec_solveV (hg M hu) (e.f x st.xdot u st.zn t0)
    set δ := solveV (g1 M) (e.f x st.xdot u st.zn t0) with hδ
    refine ⟨st.xdot - fstP δ, ?_⟩
    rw [hM, dfdxdotz_mulVec, ha.fk, ha.fz, ha.f] at hs
    rw [ha.f, Matrix.mulVec_sub, Matrix.mulVec_sub]
    have : Fk *ᵥ fstP δ + Fz *ᵥ sndP δ = Fx *ᵥ x + Fk *ᵥ st.xdot + Fz *ᵥ st.zn + c t0 := hs
    rw [← sub_eq_zero.mpr this.symm]
    abel
  rcases hn with ⟨hj, hn⟩ | hn
  · obtain ⟨m, hm⟩ := Nat.exists_eq_succ_of_ne_zero hn
    simp only [exRun]
    rw [hm, loop_succ]
    exact one _ _ (Or.inr hj)
  · simp only [exRun]
    rw [hn, loop_succ]
    exact one _ _ (Or.inl rfl)

/-- **C71 (exact sensitivities).**  With `exact_z_output`, the returned sensitivity matrix times `v` solves,
with some derivative direction, the model equations linearised at `(x, xdot, u, z)`. -/
theorem C71_exact_sens (hg : ∀ M, IsUnit M → IsLu M (g1 M)) (x xdot : Fin d.nx → K) (z : Fin d.nz → K)
    (hr : Regular0 t0 e u x xdot z) (w : Matrix (Fin (d.nx + d.nz)) (Fin (d.nx + d.nz)) K)
    (w2 : Matrix (Fin (d.nx + d.nz)) (Fin (d.nx + d.nu)) K) (v : Fin (d.nx + d.nu) → K) :
    ∃ δk, e.fx x xdot u z t0 *ᵥ fstP v + e.fk x xdot u z t0 *ᵥ δk
      + e.fz x xdot u z t0 *ᵥ (sAlgEx d t0 e u g1 w w2 x xdot z *ᵥ v) + e.fu x xdot u z t0 *ᵥ sndP v = 0 := by
  set R := gecpsc (d.nx + d.nz) d.nu 1 (e.fu x xdot u z t0) 0 0
    (gecpsc (d.nx + d.nz) d.nx 1 (e.fx x xdot u z t0) 0 0 w2 0 0) 0 d.nx with hR
  have hM := Acados.Gnsf.mul_solveM (hg _ (dfdxdotz_isUnit t0 e u hr w)) R
  set Y := solveM (g1 (dfdxdotz d t0 e u x xdot z w)) R with hY
  have h1 : dfdxdotz d t0 e u x xdot z w *ᵥ (Y *ᵥ v) = R *ᵥ v := by
    rw [Matrix.mulVec_mulVec, hM]
  rw [dfdxdotz_mulVec, hR, twoCols] at h1
  have h2 : sAlgEx d t0 e u g1 w w2 x xdot z *ᵥ v = - sndP (Y *ᵥ v) := by
    funext i
    simp only [mulVec, dotProduct, sndP, Pi.neg_apply, ← Finset.sum_neg_distrib]
    refine Finset.sum_congr rfl fun j _ => ?_
    change rd2 (-Y) (d.nx + i.val) j.val * v j = _
    rw [rd2_lt _ _ _ (by omega) j.isLt, ← neg_mul]; rfl
  refine ⟨- fstP (Y *ᵥ v), ?_⟩
  rw [h2, Matrix.mulVec_neg, Matrix.mulVec_neg]
  have h3 := sub_eq_zero.mpr h1.symm
  rw [← h3]
  abel

end Ex

/-! ### The hypotheses are met; where the property fails -/

/-- two Radau nodes, values `1` and `3`: the line `3 x` at `0` -/
example : neville (0 : ℚ) 1 (fun i => if i = 0 then 1 / 3 else 1) (fun i => if i = 0 then 1 else 3) = 0 := by
  decide +kernel

example : Nodes dX (oX false) := fun a b _ => Subsingleton.elim a b

/-- the affine example has determined `ẋ`, `z`: `ẋ - z = 0`, `z = 0` -/
theorem reg0X (a b : Fin 1 → ℚ) (hab : (!![1; 0] : Matrix (Fin 2) (Fin 1) ℚ) *ᵥ a
    + (!![-1; 1] : Matrix (Fin 2) (Fin 1) ℚ) *ᵥ b = 0) : a = 0 ∧ b = 0 := by
  have h0 := congrFun hab 0
  have h1 := congrFun hab 1
  simp [dotProduct, Matrix.vecHead, Matrix.vecTail] at h0 h1
  have hb : b 0 = 0 := by linarith
  have ha : a 0 = 0 := by linarith
  constructor
  · funext i; rw [Subsingleton.elim i 0]; exact ha
  · funext i; rw [Subsingleton.elim i 0]; exact hb

/-- exact factorisation of `2 × 2` matrices -/
def inv2 (M : Matrix (Fin 2) (Fin 2) ℚ) : Matrix (Fin 2) (Fin 2) ℚ := fun i j =>
  (if i = j then M (1 - i) (1 - j) else - M i j) / (M 0 0 * M 1 1 - M 0 1 * M 1 0)
def g2 (M : Matrix (Fin 2) (Fin 2) ℚ) : Lu (Fin 2) ℚ := ⟨1, 1, M, 1, inv2 M⟩

theorem exact2 (M : Matrix (Fin 2) (Fin 2) ℚ) (hM : IsUnit M) : IsLu M (g2 M) := by
  have hdet : M 0 0 * M 1 1 - M 0 1 * M 1 0 ≠ 0 := by
    have h1 := ((Matrix.isUnit_iff_isUnit_det M).mp hM).ne_zero
    rwa [Matrix.det_fin_two] at h1
  refine ⟨by simp [g2], by simp [g2], ?_⟩
  ext i j
  rw [Matrix.mul_apply, Fin.sum_univ_two]
  have hdet2 : -(M 1 0 * M 0 1) + M 0 0 * M 1 1 ≠ 0 := fun h0 => hdet (by linear_combination h0)
  fin_cases i <;> fin_cases j <;> simp [g2, inv2] <;> field_simp <;> ring_nf <;> field_simp

example (u : Fin 1 → ℚ) (x : Fin 1 → ℚ) (k rg : Fin 2 → ℚ) (lu : Lu (Fin 2) ℚ) :
    ∃ xdot, eX.f x xdot u (exRun dX (oX false) 0 eX u g2 0 x k rg lu).zn 0 = 0 :=
  C71_exact_affine_partial (d := dX) (oX false) 0 eX u g2 exact2 (affineX u) reg0X
    (Or.inl ⟨rfl, by simp [oX]⟩) 0 x k rg lu

abbrev dE : Dims := ⟨1, 1, 0, 1, 0⟩
def oE (reuse : Bool) : Opts ℚ := ⟨fun _ => 1, fun _ => 1, fun _ => 1, 3, 1 / 100, reuse⟩
/-- `ẋ = x`, `z = ẋ²` -/
def eE : Ext dE ℚ where
  f x k _ z _ := ![k 0 - x 0, z 0 - k 0 ^ 2]
  fx _ _ _ _ _ := !![-1; 0]
  fk _ k _ _ _ := !![1; -2 * k 0]
  fu _ _ _ _ _ := fun _ j => nomatch j
  fz _ _ _ _ _ := !![0; 1]
  fp _ _ _ _ _ := fun _ j => nomatch j
  hess _ _ _ _ _ _ := 0

/-- **C71, exact output is false.**  `ẋ = x`, `z = ẋ²`, one implicit Euler step of length `1/2` from `x = 1`,
three Newton iterations.  The step is solved exactly (`k = 2`, `z = 4`); at the initial state the only
consistent value is `z = 1` with `dz/dx = 2`; the integrator returns `z = 0` and `dz/dx = -2`: the
derivative `xdot` is overwritten with the Newton correction instead of being updated by it. -/
theorem C71_exact_false : (∀ M : Matrix (Fin 2) (Fin 2) ℚ, IsUnit M → IsLu M (g2 M))
    ∧ (step dE (oE false) (1 / 2) 0 eE ![] g2 0 (g2 0) 0 0 ![1]).k = ![2, 4]
    ∧ Solves (d := dE) (oE false) (1 / 2) eE ![] ⟨![1], ![![2]], ![![4]], 0⟩
    ∧ (∀ xdot z, eE.f ![1] xdot ![] z 0 = 0 → z = ![1])
    ∧ (exRun dE (oE false) 0 eE ![] g2 0 ![1] ![2, 4] 0 (g2 0)).zn = ![0]
    ∧ sAlgEx dE 0 eE ![] g2 0 0 ![1] (exRun dE (oE false) 0 eE ![] g2 0 ![1] ![2, 4] 0 (g2 0)).xdot
        (exRun dE (oE false) 0 eE ![] g2 0 ![1] ![2, 4] 0 (g2 0)).zn = !![-2] := by
  refine ⟨exact2, by decide +kernel, ?_, ?_, by decide +kernel, by decide +kernel⟩
  · intro i
    rw [Subsingleton.elim i 0]
    decide +kernel
  · intro xdot z hz
    have h0 := congrFun hz 0
    have h1 := congrFun hz 1
    simp [eE] at h0 h1
    have : xdot 0 = 1 := by linarith
    rw [this] at h1
    funext i
    rw [Subsingleton.elim i 0]
    simp; linarith

/-- **C71, exact output with Jacobian reuse is false** even for affine models: from the second iteration on
the residual is not evaluated and the previous correction is solved for again.  `ẋ = z`, `z = x + u²` from
`x = 1`, `u = 0`, with the stage values `k = z = 2` of one step: the only consistent value is `z = 1`, the
integrator returns `-1`. -/
theorem C71_exact_reuse_false :
    (∀ xdot z, eX.f ![1] xdot ![0] z 0 = 0 → z = ![1])
    ∧ Solves (d := dX) (oX true) (1 / 2) eX ![0] ⟨![1], ![![2]], ![![2]], 0⟩
    ∧ (exRun dX (oX true) 0 eX ![0] g2 0 ![1] ![2, 2] 0 (g2 0)).zn = ![-1] := by
  refine ⟨?_, ?_, by decide +kernel⟩
  · intro xdot z hz
    have h1 := congrFun hz 1
    simp [eX] at h1
    funext i
    rw [Subsingleton.elim i 0]
    simp; linarith
  · intro i
    rw [Subsingleton.elim i 0]
    decide +kernel

end Acados.Irk
