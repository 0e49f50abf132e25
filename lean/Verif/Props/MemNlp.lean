import Verif.Lemmas.MemAuto
import Verif.Model.MemNlp
import Verif.Props.MemQp
/-!
# C02 for the NLP layer

`Fits ops size`: started at any 8-byte aligned address, the assign function `ops` runs without an
assertion failure inside the `size` bytes, every array is aligned for its element type and the arrays
are disjoint (`Verif/Props/Mem.lean`).
-/
namespace Acados.Mem
open Finset

theorem maxFrom_ge (m : Nat) (f : Nat → Nat) : ∀ n, m ≤ maxFrom m f n
  | 0 => Nat.le_refl m
  | n + 1 => Nat.le_trans (maxFrom_ge m f n) (Nat.le_max_left _ _)

theorem le_maxFrom (m : Nat) (f : Nat → Nat) : ∀ {n i}, i < n → f i ≤ maxFrom m f n
  | n + 1, i, h => by
    rcases Nat.lt_succ_iff_lt_or_eq.1 h with h | rfl
    · exact Nat.le_trans (le_maxFrom m f h) (Nat.le_max_left _ _)
    · exact Nat.le_max_right _ _

theorem dvd_max {k a b : Nat} (ha : k ∣ a) (hb : k ∣ b) : k ∣ max a b := by
  rcases Nat.le_total a b with h | h
  · rw [Nat.max_eq_right h]; exact hb
  · rw [Nat.max_eq_left h]; exact ha

theorem maxFrom_dvd {k m : Nat} {f : Nat → Nat} (hm : k ∣ m) (hf : ∀ i, k ∣ f i) :
    ∀ n, k ∣ maxFrom m f n
  | 0 => hm
  | n + 1 => dvd_max (maxFrom_dvd hm hf n) (hf n)

theorem Mods.largest_dvd {m : Mods} (hm : m.OK) {m0 : Nat} (h0 : 8 ∣ m0) (N : Nat) :
    8 ∣ m.largest m0 N :=
  maxFrom_dvd (maxFrom_dvd (maxFrom_dvd h0 hm.dyn _) hm.cost _) hm.con _

theorem need_mods (m : Mods) (N : Nat) : need (m.ops N) = m.total N := by
  simp only [Mods.ops, Mods.total, need_append, need_loop, need_struct, need_nil, Nat.add_zero]

theorem al_mods {m : Mods} (hm : m.OK) {N k : Nat} {t : List Op} (hk : 8 ∣ k) (ht : AlOK 8 t) :
    AlOK k (m.ops N ++ t) := by
  unfold Mods.ops
  rw [List.append_assoc, List.append_assoc]
  exact al_loop_struct hk hm.dyn (al_loop_struct (Nat.dvd_refl 8) hm.cost
    (al_loop_struct (Nat.dvd_refl 8) hm.con ht))

theorem al_mods_end {m : Mods} (hm : m.OK) {N k : Nat} (hk : 8 ∣ k) : AlOK k (m.ops N) := by
  have h := al_mods hm (N := N) hk (al_nil 8)
  rwa [List.append_nil] at h

theorem ite_two (c : Bool) (a : Nat) : (if c then 2 * a else 0) = 2 * (if c then a else 0) := by
  cases c <;> rfl

theorem ite_add0 (c : Bool) (a b : Nat) :
    (if c then a + b else 0) = (if c then a else 0) + (if c then b else 0) := by
  cases c <;> rfl

/-! ## `ocp_nlp_common.c` -/

/-- **C02** `ocp_nlp_config`. -/
theorem C02_nlp_config (sz qp reg glob dyn cost con N : Nat) (h : 8 ∣ sz) (hq : 8 ∣ qp) (hr : 8 ∣ reg)
    (hg : 8 ∣ glob) (hd : 8 ∣ dyn) (hc : 8 ∣ cost) (hn : 8 ∣ con) :
    Fits (nlpConfigOps sz qp reg glob dyn cost con N) (nlpConfigSize sz qp reg glob dyn cost con N) := by
  apply fits_of
  · unfold nlpConfigOps; mem_al
  · unfold nlpConfigOps nlpConfigSize; mem_need

/-- **C02** regularization dimensions. -/
theorem C02_reg_dims (sz N : Nat) (h : 8 ∣ sz) : Fits (regDimsOps sz N) (regDimsSize sz N) := by
  apply fits_of
  · unfold regDimsOps; mem_al
  · unfold regDimsOps regDimsSize; mem_need

/-- **C02** QP scaling dimensions. -/
theorem C02_qpscal_dims (sz : Nat) (h : HpQp) (hs : 8 ∣ sz) (hh : h.OK) :
    Fits (qpscalDimsOps sz h) (qpscalDimsSize sz h) := by
  obtain ⟨h1, h2, h3, h4⟩ := hh
  apply fits_of
  · unfold qpscalDimsOps; mem_al
  · unfold qpscalDimsOps qpscalDimsSize; mem_need

/-- **C02, part**: the own part of `ocp_nlp_dims`, for an odd number of shooting intervals.  Missing:
even `N`, where the statement is false (`C02_nlp_dims_self_false`). -/
theorem C02_nlp_dims_self_partial (sz szReg szScal : Nat) (h : HpQp) (k : Nat) (hs : 8 ∣ sz)
    (hr : 8 ∣ szReg) :
    Fits (nlpDimsSelfOps sz szReg szScal h (2 * k + 1)) (nlpDimsSelfSize sz szReg szScal h (2 * k + 1)) := by
  have hq : 8 ∣ qpscalDimsSize szScal h := dvd_makeIntMultipleOf _
  have hg : 8 ∣ regDimsSize szReg (2 * k + 1) := by unfold regDimsSize; omega
  apply fits_of
  · unfold nlpDimsSelfOps
    generalize qpscalDimsSize szScal h = q at hq ⊢
    generalize regDimsSize szReg (2 * k + 1) = g at hg ⊢
    mem_al
  · unfold nlpDimsSelfOps nlpDimsSelfSize
    generalize qpscalDimsSize szScal h = q
    generalize regDimsSize szReg (2 * k + 1) = g
    mem_need

/-- Every block of the own part of `ocp_nlp_dims` stays inside the buffer for every `N`; what fails for
even `N` is only the alignment of the two QP scaling dimension objects. -/
theorem C02_nlp_dims_self_bytes (sz szReg szScal : Nat) (h : HpQp) (N : Nat) :
    need (nlpDimsSelfOps sz szReg szScal h N) ≤ nlpDimsSelfSize sz szReg szScal h N := by
  unfold nlpDimsSelfOps nlpDimsSelfSize
  generalize qpscalDimsSize szScal h = q
  generalize regDimsSize szReg N = g
  mem_need

/-- **C02 is false** of the own part of `ocp_nlp_dims` for an even number of shooting intervals: the
regularization dimensions have `5 (N + 1)` integers and no padding, so the QP scaling dimensions behind
them (a struct of pointers) start at an address that is four modulo eight. -/
theorem C02_nlp_dims_self_false : ∃ (sz szReg szScal : Nat) (h : HpQp) (N : Nat), 8 ∣ sz ∧ 8 ∣ szReg ∧
    8 ∣ szScal ∧ h.OK ∧
    ¬ Fits (nlpDimsSelfOps sz szReg szScal h N) (nlpDimsSelfSize sz szReg szScal h N) := by
  refine ⟨136, 40, 8, exampleHp, 2, by decide, by decide, by decide, exampleHp_ok, fun H => ?_⟩
  obtain ⟨rs, q, hr, _, ha, _⟩ := H 0 (by decide)
  have e : (run (nlpDimsSelfOps 136 40 8 exampleHp 2) 0).map
      (fun x => decide (∀ r ∈ x.1, r.natural ∣ r.start)) = some false := by decide
  rw [hr] at e
  exact of_decide_eq_false (Option.some.inj e) (fun r h => (ha r h).2.2)

/-- **C02** `ocp_nlp_dims`. -/
theorem C02_nlp_dims (self : Nat) (m : Mods) (qp rqp N : Nat) (hs : 8 ∣ self) (hm : m.OK) (hq : 8 ∣ qp) :
    Fits (nlpDimsOps self m qp rqp N) (nlpDimsSize self m qp rqp N) := by
  apply fits_of
  · unfold nlpDimsOps
    mem_norm
    exact al_struct (by decide) hs (al_mods hm (by decide) (al_struct (by decide) hq
      (al_struct_last (by decide))))
  · unfold nlpDimsOps nlpDimsSize
    simp only [need_append, need_mods, need_struct, need_nil]
    omega

/-- **C02** `ocp_nlp_in`. -/
theorem C02_nlp_in (B : Blasfeo) (sz sv : Nat) (d : NlpD) (m : Mods) (hs : 8 ∣ sz) (hv : 8 ∣ sv)
    (hm : m.OK) : Fits (nlpInOps B sz sv d m) (nlpInSize B sz sv d m) := by
  apply fits_of
  · unfold nlpInOps
    mem_norm
    iterate 8 mem_step
    refine al_mods hm (by decide) ?_
    repeat mem_step
  · unfold nlpInOps nlpInSize
    refine Nat.le_trans ?_ (le_makeIntMultipleOf _ _)
    simp only [need_append, need_mods, need_struct, need_nil, need_loop, need_dvec, need_doubles, need_ptrs,
      need_align, List.cons_append, List.nil_append, Nat.add_zero]
    generalize m.total d.N = x
    omega

/-- **C02** `ocp_nlp_out`. -/
theorem C02_nlp_out (B : Blasfeo) (sz sv : Nat) (d : NlpD) (hs : 8 ∣ sz) (hv : 8 ∣ sv) :
    Fits (nlpOutOps B sz sv d) (nlpOutSize B sz sv d) := by
  apply fits_of
  · unfold nlpOutOps; mem_al
  · unfold nlpOutOps nlpOutSize; mem_need

/-- **C02** `ocp_nlp_opts`. -/
theorem C02_nlp_opts (sz qp reg scal glob : Nat) (m : Mods) (N : Nat) (hs : 8 ∣ sz) (hq : 8 ∣ qp)
    (hr : 8 ∣ reg) (hc : 8 ∣ scal) (hg : 8 ∣ glob) (hm : m.OK) :
    Fits (nlpOptsOps sz qp reg scal glob m N) (nlpOptsSize sz qp reg scal glob m N) := by
  apply fits_of
  · unfold nlpOptsOps
    mem_norm
    iterate 10 mem_step
    exact al_mods_end hm (by decide)
  · unfold nlpOptsOps nlpOptsSize
    simp only [need_append, need_mods, need_struct, need_nil, need_align, List.cons_append,
      List.nil_append, Nat.add_zero]
    omega

/-- **C02** `ocp_nlp_res`. -/
theorem C02_nlp_res (B : Blasfeo) (sz sv : Nat) (d : NlpD) (hs : 8 ∣ sz) (hv : 8 ∣ sv) :
    Fits (nlpResOps B sz sv d) (nlpResSize B sz sv d) := by
  apply fits_of
  · unfold nlpResOps; mem_al
  · unfold nlpResOps nlpResSize; mem_need

/-- **C02** `ocp_nlp_memory`, for every combination of Anderson acceleration, storing iterates, forward
solution sensitivities and step norm logs. -/
theorem C02_nlp_memory (B : Blasfeo) (sz sm sv : Nat) (d : NlpD) (o : NlpMemO) (m : Mods) (hs : 8 ∣ sz)
    (hsm : 8 ∣ sm) (hsv : 8 ∣ sv) (ho : o.OK) (hm : m.OK) :
    Fits (nlpMemoryOps B sz sm sv d o m) (nlpMemorySize B sz sm sv d o m) := by
  obtain ⟨h1, h2, h3, h4, h5, h6, h7, h8, h9⟩ := ho
  apply fits_of
  · unfold nlpMemoryOps
    mem_norm
    iterate 5 mem_step
    refine al_ite (k := 8) (fun t h => al_struct (by decide) (by omega) h) (fun t h => h) ?_
    iterate 3 mem_step
    refine al_ite (k := 8) (fun t h => al_struct (by decide) h2 (al_struct (by decide) h2 h))
      (fun t h => h) ?_
    iterate 4 mem_step
    refine al_mods hm (by decide) ?_
    refine al_ite (k := 8) (fun t h => al_loop_struct (by decide) (fun _ => h7) h) (fun t h => h) ?_
    iterate 3 mem_step
    refine al_ite (k := 8) (fun t h => al_ptrs (by decide) hsm (al_ptrs (by decide) hsm
      (al_ptrs (by decide) hsm h))) (fun t h => h) ?_
    iterate 8 mem_step
    refine al_ite (k := 8) (fun t h => al_rawDoubles (by decide) h) (fun t h => h) ?_
    refine al_ite (k := 8) (fun t h => al_rawDoubles (by decide) h) (fun t h => h) ?_
    iterate 2 mem_step
    refine al_ite (k := 64) (fun t h => ?_) (fun t h => h) ?_
    · rw [List.append_assoc]
      exact al_loop_dmat2 (by decide) (al_loop_dmat (by decide) h)
    repeat mem_step
  · unfold nlpMemoryOps nlpMemorySize
    refine Nat.le_trans ?_ (le_makeIntMultipleOf _ _)
    simp only [need_append, need_mods, need_struct, need_nil, need_loop, need_dvec, need_dmat,
      need_rawDoubles, need_ptrs, need_bools, need_align, List.cons_append, List.nil_append, Nat.add_zero,
      need_ite, sum_range_succ, sum_add_distrib, sum_const_range, ← mul_sum]
    generalize m.total d.N = x
    simp only [ite_two, ite_add0, Nat.add_mul, Nat.one_mul, Nat.mul_add, Nat.mul_one]
    linarith

/-- **C02** `ocp_nlp_workspace`, with and without workspace reuse. -/
theorem C02_nlp_workspace (B : Blasfeo) (sz : Nat) (d : NlpD) (o : NlpWorkO) (m ext : Mods) (hs : 8 ∣ sz)
    (ho : o.OK) (hm : m.OK) (he : ext.OK) :
    Fits (nlpWorkOps B sz d o m ext) (nlpWorkSize B sz d o m ext) := by
  obtain ⟨h1, h2, h3, h4, h5, h6⟩ := ho
  have hl := Mods.largest_dvd hm h6 d.N
  have hl' := Mods.largest_dvd he (m0 := 0) (by decide) d.N
  apply fits_of
  · unfold nlpWorkOps
    generalize m.largest o.qpWork d.N = l at hl ⊢
    generalize ext.largest 0 d.N = l' at hl' ⊢
    mem_norm
    iterate 9 mem_step
    refine al_ite (k := 8) (fun t h => al_struct (by decide) h4 (al_struct (by decide) h5 h))
      (fun t h => h) ?_
    iterate 7 mem_step
    refine al_ite (k := 8) (fun t h => al_struct (by decide) hl h)
      (fun t h => al_struct (by decide) h6 (al_mods hm (by decide) h)) ?_
    mem_step
    cases o.reuse
    · simp only [Bool.false_eq_true, if_false]
      exact al_loop_struct (by decide) he.con (al_loop_struct (by decide) he.cost
        (al_loop_end (al_loop_struct (by decide) he.dyn (al_nil _))))
    · exact al_struct_last (by decide)
  · unfold nlpWorkOps nlpWorkSize
    generalize m.largest o.qpWork d.N = l at hl ⊢
    generalize ext.largest 0 d.N = l' at hl' ⊢
    simp only [need_append, need_mods, need_struct, need_nil, need_loop, need_dvec, need_ints,
      need_doubles, need_align, List.cons_append, List.nil_append, Nat.add_zero,
      need_ite]
    have e : ext.total d.N = ∑ i ∈ range d.N, ext.dyn i + ∑ i ∈ range (d.N + 1), ext.cost i
      + ∑ i ∈ range (d.N + 1), ext.con i := rfl
    rw [e]
    generalize m.total d.N = x
    rcases o with ⟨a, b, x1, x2, x3, x4, x5, x6⟩
    cases a <;> cases b <;>
      simp only [if_true, if_false, Bool.false_eq_true] <;> omega

/-- **C02** workspace reuse: the shared block is large enough for the QP solver and for every module at
every stage. -/
theorem C02_nlp_workspace_shared (m : Mods) (qpWork N : Nat) :
    qpWork ≤ m.largest qpWork N ∧ (∀ i < N, m.dyn i ≤ m.largest qpWork N) ∧
      (∀ i ≤ N, m.cost i ≤ m.largest qpWork N) ∧ (∀ i ≤ N, m.con i ≤ m.largest qpWork N) := by
  have h3 := maxFrom_ge (maxFrom (maxFrom qpWork m.dyn N) m.cost (N + 1)) m.con (N + 1)
  have h2 := maxFrom_ge (maxFrom qpWork m.dyn N) m.cost (N + 1)
  refine ⟨Nat.le_trans (maxFrom_ge _ _ _) (Nat.le_trans h2 h3), fun i h => ?_, fun i h => ?_, fun i h => ?_⟩
  · exact Nat.le_trans (le_maxFrom _ _ h) (Nat.le_trans h2 h3)
  · exact Nat.le_trans (le_maxFrom _ _ (Nat.lt_succ_of_le h)) h3
  · exact le_maxFrom _ _ (Nat.lt_succ_of_le h)

/-! ## Regularization, QP scaling, globalization -/

/-- **C02** mirror / project regularization memory. -/
theorem C02_reg_mirror (sz M N : Nat) (h : 8 ∣ sz) : Fits (regMirrorOps sz M N) (regMirrorSize sz M N) := by
  apply fits_of
  · unfold regMirrorOps; mem_al
  · unfold regMirrorOps regMirrorSize; mem_need

/-- **C02** Gershgorin Levenberg-Marquardt regularization memory. -/
theorem C02_reg_glm (sz N : Nat) (h : 8 ∣ sz) : Fits (regGlmOps sz N) (regGlmSize sz N) := by
  apply fits_of
  · unfold regGlmOps; mem_al
  · unfold regGlmOps regGlmSize; mem_need

/-- **C02** reduced Hessian projection memory. -/
theorem C02_reg_reduc (B : Blasfeo) (sz M nxM nuM N : Nat) (h : 8 ∣ sz) :
    Fits (regReducOps B sz M nxM nuM N) (regReducSize B sz M nxM nuM N) := by
  apply fits_of
  · unfold regReducOps; mem_al
  · unfold regReducOps regReducSize; mem_need

/-- **C02** convexification memory. -/
theorem C02_reg_convexify (B : Blasfeo) (sz sm M nxM nuM nbgM : Nat) (d : NlpD) (h : 8 ∣ sz)
    (hm : 8 ∣ sm) :
    Fits (regConvexifyOps B sz sm M nxM nuM nbgM d) (regConvexifySize B sz sm M nxM nuM nbgM d) := by
  have hsm : 8 ∣ sm * (d.N + 1) := Dvd.dvd.mul_right hm _
  apply fits_of
  · unfold regConvexifyOps; mem_al
  · unfold regConvexifyOps regConvexifySize; mem_need

/-- **C02** QP scaling memory. -/
theorem C02_qpscal_memory (B : Blasfeo) (sz sv qpIn qpOut : Nat) (obj con : Bool) (N : Nat)
    (ng : Nat → Nat) (hs : 8 ∣ sz) (hv : 8 ∣ sv) (hi : 8 ∣ qpIn) (ho : 8 ∣ qpOut) :
    Fits (qpscalMemoryOps B sz sv qpIn qpOut obj con N ng)
      (qpscalMemorySize B sz sv qpIn qpOut obj con N ng) := by
  unfold qpscalMemoryOps qpscalMemorySize
  cases obj <;> cases con <;> apply fits_of <;>
    simp only [Bool.or_true, Bool.or_false, if_true, if_false, Bool.false_eq_true] <;>
    first | (mem_al; done) | mem_need

/-- **C02** globalization memory. -/
theorem C02_glob_memory (sz : Nat) : Fits (globMemoryOps sz) (globMemorySize sz) := by
  apply fits_of
  · exact ⟨by decide, ⟨by decide, by decide, trivial⟩⟩
  · unfold globMemoryOps globMemorySize; mem_need

/-! ## NLP solvers -/

/-- **C02** SQP memory. -/
theorem C02_sqp_memory (sz nlp : Nat) (e : Bool) (maxIter : Nat) (hs : 8 ∣ sz) (hn : 8 ∣ nlp) :
    Fits (sqpMemoryOps sz nlp e maxIter) (sqpMemorySize sz nlp e maxIter) := by
  apply fits_of
  · unfold sqpMemoryOps; mem_al
  · unfold sqpMemoryOps sqpMemorySize
    rw [Nat.mul_comm (maxIter + 1)]
    generalize (if e then 7 + 4 else 7) * (maxIter + 1) = k
    mem_need

/-- **C02** SQP_RTI memory. -/
theorem C02_rti_memory (sz nlp : Nat) (l e : Bool) (asIter : Nat) (hs : 8 ∣ sz) (hn : 8 ∣ nlp) :
    Fits (rtiMemoryOps sz nlp l e asIter) (rtiMemorySize sz nlp l e asIter) := by
  apply fits_of
  · unfold rtiMemoryOps; mem_al
  · unfold rtiMemoryOps rtiMemorySize
    rw [Nat.mul_comm (2 + asIter)]
    generalize rtiStatN l e * (2 + asIter) = k
    mem_need

/-- **C02** DDP memory. -/
theorem C02_ddp_memory (B : Blasfeo) (sz nlp : Nat) (e : Bool) (maxIter : Nat) (d : NlpD) (hs : 8 ∣ sz)
    (hn : 8 ∣ nlp) : Fits (ddpMemoryOps B sz nlp e maxIter d) (ddpMemorySize B sz nlp e maxIter d) := by
  apply fits_of
  · unfold ddpMemoryOps; mem_al
  · unfold ddpMemoryOps ddpMemorySize
    rw [Nat.mul_comm (maxIter + 1)]
    generalize (if e then 7 + 4 else 7) * (maxIter + 1) = k
    generalize maxUpTo d.N d.nu * maxUpTo d.N d.nx = j
    mem_need

/-- **C02** SQP_WITH_FEASIBLE_QP memory. -/
theorem C02_wfqp_memory (B : Blasfeo) (sz sm sv nlp qpMem qpWork qpIn qpOut scal maxStr maxIter : Nat)
    (nns : Nat → Nat) (d : NlpD) (hs : 8 ∣ sz) (hm : 8 ∣ sm) (hv : 8 ∣ sv) (h1 : 8 ∣ nlp) (h2 : 8 ∣ qpMem)
    (h3 : 8 ∣ qpWork) (h4 : 8 ∣ qpIn) (h5 : 8 ∣ qpOut) (h6 : 8 ∣ scal) :
    Fits (wfqpMemoryOps B sz sm sv nlp qpMem qpWork qpIn qpOut scal maxStr maxIter nns d)
      (wfqpMemorySize B sz sm sv nlp qpMem qpWork qpIn qpOut scal maxStr maxIter nns d) := by
  apply fits_of
  · unfold wfqpMemoryOps; mem_al
  · unfold wfqpMemoryOps wfqpMemorySize; mem_need

/-- **C02** options and workspaces of the NLP solvers. -/
theorem C02_solver_pair (sz nlp : Nat) (h : 8 ∣ sz) : Fits (solverPairOps sz nlp) (solverPairSize sz nlp) := by
  apply fits_of
  · exact al_struct (by decide) h (al_struct_last (by decide))
  · unfold solverPairOps solverPairSize; mem_need

/-! ## The sizes are multiples of eight -/

theorem nlpOutSize_dvd (B : Blasfeo) (sz sv : Nat) (d : NlpD) : 8 ∣ nlpOutSize B sz sv d :=
  dvd_makeIntMultipleOf _
theorem nlpResSize_dvd (B : Blasfeo) (sz sv : Nat) (d : NlpD) : 8 ∣ nlpResSize B sz sv d :=
  dvd_makeIntMultipleOf _
theorem nlpMemorySize_dvd (B : Blasfeo) (sz sm sv : Nat) (d : NlpD) (o : NlpMemO) (m : Mods) :
    8 ∣ nlpMemorySize B sz sm sv d o m := dvd_makeIntMultipleOf _

theorem dvd_sum {k : Nat} (n : Nat) {f : Nat → Nat} (h : ∀ i, k ∣ f i) : k ∣ ∑ i ∈ range n, f i :=
  Finset.dvd_sum (fun i _ => h i)

/-- The QP scaling memory is followed by other objects without an alignment step. -/
theorem qpscalMemorySize_dvd (B : Blasfeo) (sz sv qpIn qpOut : Nat) (obj con : Bool) (N : Nat)
    (ng : Nat → Nat) (hs : 8 ∣ sz) (hv : 8 ∣ sv) (hi : 8 ∣ qpIn) (ho : 8 ∣ qpOut) :
    8 ∣ qpscalMemorySize B sz sv qpIn qpOut obj con N ng := by
  have h1 := dvd_sum (N + 1) (fun i => B.dvec8 (ng i))
  have h2 : 8 ∣ sv * (N + 1) := Dvd.dvd.mul_right hv _
  unfold qpscalMemorySize
  cases obj <;> cases con <;>
    simp only [Bool.or_true, Bool.or_false, if_true, if_false, Bool.false_eq_true] <;> omega

theorem regMirrorSize_dvd (sz M N : Nat) (h : 8 ∣ sz) : 8 ∣ regMirrorSize sz M N := by
  unfold regMirrorSize; omega
theorem regGlmSize_dvd (sz N : Nat) (h : 8 ∣ sz) : 8 ∣ regGlmSize sz N := by
  unfold regGlmSize; omega
theorem regReducSize_dvd (B : Blasfeo) (sz M nxM nuM N : Nat) (h : 8 ∣ sz) :
    8 ∣ regReducSize B sz M nxM nuM N := by
  have f : ∀ a b, 8 ∣ B.dmat a b := fun a b => Nat.dvd_trans (by decide) (B.dmat64 a b)
  have h1 := f M M; have h2 := f nxM nuM; have h3 := f nxM nxM; have h4 := f M nxM
  unfold regReducSize; omega
theorem regConvexifySize_dvd (B : Blasfeo) (sz sm M nxM nuM nbgM : Nat) (d : NlpD) (h : 8 ∣ sz)
    (hm : 8 ∣ sm) : 8 ∣ regConvexifySize B sz sm M nxM nuM nbgM d := by
  have f : ∀ a b, 8 ∣ B.dmat a b := fun a b => Nat.dvd_trans (by decide) (B.dmat64 a b)
  have h1 := f M M; have h2 := f nxM nuM; have h3 := f nxM nxM; have h4 := f M nxM
  have h5 := f nuM nuM; have h6 := B.dvec8 M; have h7 := B.dvec8 nbgM
  have hsm : 8 ∣ sm * (d.N + 1) := Dvd.dvd.mul_right hm _
  have h8 := dvd_sum (d.N + 1) (f := fun i => 2 * B.dmat (d.nu i + d.nx i + 1) (d.nu i + d.nx i))
    (fun i => Dvd.dvd.mul_left (f _ _) 2)
  unfold regConvexifySize
  refine Nat.dvd_add ?_ (by omega)
  refine Nat.dvd_add ?_ (by omega)
  refine Nat.dvd_add ?_ (by omega)
  refine Nat.dvd_add ?_ h1
  refine Nat.dvd_add ?_ h8
  omega

/-! ## Concrete sizes -/

/-- three shooting intervals, `nx = 4`, `nu = 1` (none at the last stage), six inequalities -/
def exampleNlpD : NlpD where
  N := 3
  nx _ := 4
  nu i := if i < 3 then 1 else 0
  nz _ := 0
  ni _ := 6
  niNl _ := 1
  ns _ := 1
  nv i := if i < 3 then 7 else 6
  np _ := 2
  nb _ := 5
  ng _ := 0
  nGlobalData := 3
  npGlobal := 2

def exampleMods : Mods where
  dyn _ := 320
  cost _ := 208
  con _ := 512

theorem exampleMods_ok : exampleMods.OK := ⟨fun _ => (by decide : 8 ∣ 320), fun _ => (by decide : 8 ∣ 208),
  fun _ => (by decide : 8 ∣ 512)⟩

example : Fits (nlpInOps (panelBlasfeo 4 4) 128 40 exampleNlpD exampleMods)
    (nlpInSize (panelBlasfeo 4 4) 128 40 exampleNlpD exampleMods) :=
  C02_nlp_in _ _ _ _ _ (by decide) (by decide) exampleMods_ok

def exampleMemO : NlpMemO where
  anderson := true
  storeIterates := true
  sensForw := true
  logPrimal := true
  logDual := false
  maxIter := 50
  qpIn := 1024
  qpOut := 800
  qpMem := 4096
  reg := 640
  scal := 160
  glob := 96
  nlpOut := 1104
  res := 1200
  szTimings := 64

theorem exampleMemO_ok : exampleMemO.OK :=
  ⟨(by decide : 8 ∣ 1024), (by decide : 8 ∣ 800), (by decide : 8 ∣ 4096), (by decide : 8 ∣ 640),
    (by decide : 8 ∣ 160), (by decide : 8 ∣ 96), (by decide : 8 ∣ 1104), (by decide : 8 ∣ 1200),
    (by decide : 8 ∣ 64)⟩

example : Fits (nlpMemoryOps (panelBlasfeo 4 4) 496 56 40 exampleNlpD exampleMemO exampleMods)
    (nlpMemorySize (panelBlasfeo 4 4) 496 56 40 exampleNlpD exampleMemO exampleMods) :=
  C02_nlp_memory _ _ _ _ _ _ _ (by decide) (by decide) (by decide) exampleMemO_ok exampleMods_ok

example : Fits (nlpWorkOps (panelBlasfeo 4 4) 160 exampleNlpD ⟨true, true, 1104, 800, 600, 704, 800, 2048⟩
      exampleMods exampleMods)
    (nlpWorkSize (panelBlasfeo 4 4) 160 exampleNlpD ⟨true, true, 1104, 800, 600, 704, 800, 2048⟩
      exampleMods exampleMods) :=
  C02_nlp_workspace _ _ _ _ _ _ (by decide)
    ⟨(by decide : 8 ∣ 1104), (by decide : 8 ∣ 800), (by decide : 8 ∣ 600), (by decide : 8 ∣ 704), (by decide : 8 ∣ 800),
      (by decide : 8 ∣ 2048)⟩ exampleMods_ok exampleMods_ok

example : exampleMods.largest 400 3 = 512 := by decide

end Acados.Mem
