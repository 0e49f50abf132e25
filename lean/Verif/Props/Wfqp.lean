import Verif.Lemmas.Wfqp
import Verif.Props.QpScaling
import Mathlib.Tactic.IntervalCases
/-!
# C21, C23: the relaxed QP of SQP_WITH_FEASIBLE_QP
-/
namespace Acados.Wfqp
open Finset
open Acados.QpScal

/-! ## C23: slack bookkeeping -/

/-- **C23** (partial: soft constraints declared through `idxs_rev` are missing, see `C23_idxs_rev_overflows`):
for every stage with admissible soft indices (first stage or not) the array `rev`
that assigns slacks to constraint rows in the relaxed QP satisfies

* the number of added slack pairs equals the allocated number `nns`, and together with the user's slacks
  the declared number of slacks of the relaxed QP;
* user slack `j` stays slack `j` of the row the user chose;
* a row has no slack iff the user did not soften it and it is a control bound (or an initial state bound);
* every slack of the relaxed QP belongs to exactly one row. -/
theorem C23_one_slack_per_constraint_partial {d : CDims} {sbu sbx sg sh : Nat → Nat}
    (V : ValidSoft d sbu sbx sg sh) (first : Bool) :
    let idxs := buildIdxs d sbu sbx sg sh
    let rev := relRev first d idxs
    ((idxnsOf first d idxs).length : Int) = nns first d ∧
    d.ns + (idxnsOf first d idxs).length = relaxedNs first d ∧
    (∀ j < d.nsbu, rev (sbu j) = j) ∧
    (∀ j < d.nsbx, rev (d.nbu + sbx j) = (d.nsbu + j : Nat)) ∧
    (∀ j < d.nsg, rev (d.nbu + d.nbx + sg j) = (d.nsbu + d.nsbx + j : Nat)) ∧
    (∀ j < d.nsh, rev (d.nbu + d.nbx + d.ng + sh j) = (d.nsbu + d.nsbx + d.nsg + j : Nat)) ∧
    (∀ i < d.n, rev i = -1 ↔ ¬ UserSoft d sbu sbx sg sh i ∧ NeverRelaxed first d i) ∧
    (∀ k < relaxedNs first d, ∃! i, i < d.n ∧ rev i = (k : Int)) ∧
    (∀ i < d.n, rev i = -1 ∨ ∃ k < relaxedNs first d, rev i = (k : Int)) := by
  intro idxs rev
  have hs := V.sum
  obtain ⟨l1, l2⟩ := idxns_length_valid V first
  change d.ns + (idxnsOf first d idxs).length = relaxedNs first d at l2
  obtain ⟨r1, r2, r3⟩ := relRev_char V first
  obtain ⟨n1, n2⟩ := nomRev_char V
  have hcase : ∀ i < d.n,
      (∃ p, ∃ h : p < (idxnsOf first d idxs).length, (idxnsOf first d idxs)[p] = i ∧
        rev i = ((p + d.ns : Nat) : Int) ∧ ¬ UserSoft d sbu sbx sg sh i ∧ ¬ NeverRelaxed first d i) ∨
      (∃ j < d.ns, idxs j = i ∧ rev i = (j : Int) ∧ UserSoft d sbu sbx sg sh i) ∨
      (rev i = -1 ∧ ¬ UserSoft d sbu sbx sg sh i ∧ NeverRelaxed first d i) := by
    intro i hi
    by_cases hm : i ∈ idxnsOf first d idxs
    · left
      obtain ⟨p, hp, e⟩ := List.getElem_of_mem hm
      obtain ⟨-, h2, h3⟩ := (mem_idxns ..).1 hm
      refine ⟨p, hp, e, ?_, fun h => h2 ((userSoft_iff V i).1 h), h3⟩
      rw [← e]; exact r2 p hp
    · right
      by_cases hu : UserSoft d sbu sbx sg sh i
      · left
        obtain ⟨j, hj, e⟩ := (userSoft_iff V i).1 hu
        exact ⟨j, hj, e, by rw [← e]; exact r1 j hj, hu⟩
      · right
        have hu' : ¬ ∃ j < d.ns, idxs j = i := fun h => hu ((userSoft_iff V i).2 h)
        refine ⟨(r3 i hm).trans (n2 i hu'), hu, ?_⟩
        by_contra hn
        exact hm ((mem_idxns ..).2 ⟨hi, hu', hn⟩)
  refine ⟨l1, l2, fun j hj => ?_, fun j hj => ?_, fun j hj => ?_, fun j hj => ?_, fun i hi => ?_,
    fun k hk => ?_, fun i hi => ?_⟩
  · have := r1 j (by omega)
    have e : buildIdxs d sbu sbx sg sh j = sbu j := by unfold buildIdxs; rw [if_pos hj]
    rw [e] at this; exact this
  · have := r1 (d.nsbu + j) (by omega)
    have e : buildIdxs d sbu sbx sg sh (d.nsbu + j) = d.nbu + sbx j := by
      unfold buildIdxs; rw [if_neg (by omega), if_pos (by omega), Nat.add_sub_cancel_left]
    rw [e] at this; exact this
  · have := r1 (d.nsbu + d.nsbx + j) (by omega)
    have e : buildIdxs d sbu sbx sg sh (d.nsbu + d.nsbx + j) = d.nbu + d.nbx + sg j := by
      unfold buildIdxs
      rw [if_neg (by omega), if_neg (by omega), if_pos (by omega),
        show d.nsbu + d.nsbx + j - d.nsbu - d.nsbx = j by omega]
    rw [e] at this; exact this
  · have := r1 (d.nsbu + d.nsbx + d.nsg + j) (by omega)
    have e : buildIdxs d sbu sbx sg sh (d.nsbu + d.nsbx + d.nsg + j) = d.nbu + d.nbx + d.ng + sh j := by
      unfold buildIdxs
      rw [if_neg (by omega), if_neg (by omega), if_neg (by omega),
        show d.nsbu + d.nsbx + d.nsg + j - d.nsbu - d.nsbx - d.nsg = j by omega]
    rw [e] at this; exact this
  · rcases hcase i hi with ⟨p, hp, -, e, h1, h2⟩ | ⟨j, hj, -, e, h1⟩ | ⟨e, h1, h2⟩
    · rw [e]; exact ⟨fun h => absurd h (by omega), fun h => absurd h.2 h2⟩
    · rw [e]; exact ⟨fun h => absurd h (by omega), fun h => absurd h1 h.1⟩
    · exact ⟨fun _ => ⟨h1, h2⟩, fun _ => e⟩
  · by_cases hu : k < d.ns
    · refine ⟨idxs k, ⟨build_lt V k hu, r1 k hu⟩, ?_⟩
      rintro i ⟨hi, e⟩
      rcases hcase i hi with ⟨p, hp, -, e', -⟩ | ⟨j, hj, ej, e', -⟩ | ⟨e', -⟩
      · rw [e'] at e; omega
      · have : j = k := by rw [e'] at e; omega
        rw [← ej, this]
      · rw [e'] at e; omega
    · have hp : k - d.ns < (idxnsOf first d idxs).length := by omega
      refine ⟨(idxnsOf first d idxs)[k - d.ns], ⟨((mem_idxns ..).1 (List.getElem_mem hp)).1, ?_⟩, ?_⟩
      · have := r2 (k - d.ns) hp
        rw [show k - d.ns + d.ns = k by omega] at this
        exact this
      · rintro i ⟨hi, e⟩
        rcases hcase i hi with ⟨p, hp', ep, e', -⟩ | ⟨j, hj, ej, e', -⟩ | ⟨e', -⟩
        · have : p = k - d.ns := by rw [e'] at e; omega
          subst this
          exact ep.symm
        · rw [e'] at e; omega
        · rw [e'] at e; omega
  · rcases hcase i hi with ⟨p, hp, -, e, -⟩ | ⟨j, hj, -, e, -⟩ | ⟨e, -⟩
    · exact Or.inr ⟨p + d.ns, by omega, e⟩
    · exact Or.inr ⟨j, by omega, e⟩
    · exact Or.inl e

/-- concrete dimensions: two control bounds, two state bounds, one general and two nonlinear constraints;
the second state bound and the first nonlinear constraint are soft -/
def exDims : CDims := ⟨2, 2, 1, 2, 0, 1, 0, 1, 2⟩
theorem exDims_valid : ValidSoft exDims (fun _ => 0) (fun _ => 1) (fun _ => 0) (fun _ => 0) := by
  constructor <;> simp [exDims]

example : ((idxnsOf false exDims (buildIdxs exDims (fun _ => 0) (fun _ => 1) (fun _ => 0) (fun _ => 0))) = [2, 4, 6]) ∧
    (List.range 7).map (relRev false exDims
      (buildIdxs exDims (fun _ => 0) (fun _ => 1) (fun _ => 0) (fun _ => 0))) = [-1, -1, 2, 0, 3, 1, 4] ∧
    (List.range 7).map (relRev true exDims
      (buildIdxs exDims (fun _ => 0) (fun _ => 1) (fun _ => 0) (fun _ => 0))) = [-1, -1, -1, 0, 2, 1, 3] := by
  decide

/-- **C23** (negation for inadmissible data): if the user gives the same soft index twice - nothing in the
setters rejects this - more values are written to `idxns` than were allocated. -/
theorem C23_duplicate_index_overflows : ∃ (d : CDims) (sbu sbx sg sh : Nat → Nat),
    d.ns = d.nsbu + d.nsbx + d.nsg + d.nsh ∧
    (∀ j < d.nsh, sh j < d.nh) ∧ d.nsh ≤ d.nh ∧
    nns false d < (idxnsOf false d (buildIdxs d sbu sbx sg sh)).length :=
  ⟨⟨0, 0, 0, 2, 0, 0, 0, 2, 2⟩, fun _ => 0, fun _ => 0, fun _ => 0, fun _ => 0, by decide, by decide,
    by decide, by decide⟩

/-- **C23** (negation, `idxs_rev` formulation): when the soft constraints are declared through `ns` and
`idxs_rev` (the specific dimensions `nsbu`, `nsbx`, `nsg`, `nsh` and the array `idxs` stay zero) and the
stage has a control bound, exactly `ns` more values are written to `idxns` than were allocated, so memory
behind the array is overwritten as soon as `ns > 0`. -/
theorem C23_idxs_rev_overflows (d : CDims) (hb : 0 < d.nbu) (h0 : d.nsbu = 0) (first : Bool)
    (h1 : d.nsbx = 0) :
    ((idxnsOf first d fun _ => 0).length : Int) = nns first d + d.ns := by
  classical
  have h := idxns_length first d (fun _ => 0)
  have hc : (((range d.ns).image (fun _ => 0)).filter
      fun i => i < d.n ∧ ¬ NeverRelaxed first d i).card = 0 := by
    rw [card_eq_zero]
    ext i
    simp only [mem_filter, mem_image, mem_range, notMem_empty, iff_false, not_and]
    rintro ⟨j, -, e⟩ - hn
    exact hn (Or.inl (by omega))
  rw [hc] at h
  unfold nns CDims.n
  cases first <;> simp only [if_true, Bool.false_eq_true, if_false] at h ⊢ <;> omega

example : ((idxnsOf true (⟨1, 1, 0, 2, 0, 0, 0, 0, 2⟩ : CDims) fun _ => 0).length : Int) = 2 ∧
    nns true ⟨1, 1, 0, 2, 0, 0, 0, 0, 2⟩ = 0 := by decide

/-! ## C21: the relaxed QP has a feasible point -/

section qp
variable {K : Type*} [Field K] [LinearOrder K] [IsStrictOrderedRing K]
variable {p : Soft} {q : Qp K} {old : Nat → Stage K} {useCon : Bool} {conH : Nat → Nat → Nat → K} {hs : K}

/-- **C21** (part 1, proved): whatever the linearisation (`q` arbitrary with the described dimensions), the
scaling options and the previous memory content, the relaxed QP handed to the QP solver has a feasible
point - provided there is a control satisfying the hard control bounds of every stage and an initial state
satisfying the hard initial state bounds.  (Both are data of the user, not of the linearisation; without
them no step can respect those bounds.) -/
theorem C21_relaxed_feasible (hd : Describes p q) (hq : WF q)
    (ho : ∀ i r, (old i).mask r = 0 ∨ (old i).mask r = 1) (o : Opts K) (f : K) (hf : 0 < f)
    (hf1 : o.scaleObj = false → f = 1) (m : Mem K)
    -- bounds come in the order controls, states
    (hbu : ∀ i, ∀ r < (p.cd i).nbu, (q.st i).idxb r < q.nu i)
    (hbx : ∀ r, (p.cd 0).nbu ≤ r → r < (p.cd 0).nbu + (p.cd 0).nbx → q.nu 0 ≤ (q.st 0).idxb r)
    (u : Nat → Nat → K)
    (hu : ∀ i ≤ q.N, ∀ r < (p.cd i).nbu, ¬ p.user i r → BoundOk (q.st i) r (u i ((q.st i).idxb r)))
    (x0 : Nat → K)
    (hx : ∀ r, (p.cd 0).nbu ≤ r → r < (p.cd 0).nbu + (p.cd 0).nbx → ¬ p.user 0 r →
      BoundOk (q.st 0) r (x0 ((q.st 0).idxb r - q.nu 0))) :
    ∃ ux, Feasible (scaleQpWith o.scaleObj o.scaleCon f (relaxQp useCon conH hs p q old) m).qp ux := by
  have hw := relax_wf (useCon := useCon) (conH := conH) (hs := hs) hd hq ho
  have hun := relax_unshared (useCon := useCon) (conH := conH) (hs := hs) (old := old) hd
  -- the relaxed, unscaled QP has a feasible point
  have hrows : ∀ i ≤ q.N, ∀ r < (q.st i).m, relRev (i == 0) (p.cd i) (p.idxs i) r = -1 →
      r < (q.st i).nb ∧
      (((q.st i).idxb r < q.nu i ∧ BoundOk (q.st i) r (u i ((q.st i).idxb r))) ∨
       (i = 0 ∧ q.nu 0 ≤ (q.st 0).idxb r ∧ BoundOk (q.st 0) r (x0 ((q.st 0).idxb r - q.nu 0)))) := by
    intro i hi r hr he
    have hr' : r < (p.cd i).n := by rw [← hd.m]; exact hr
    obtain ⟨-, -, -, -, -, -, h, -⟩ := C23_one_slack_per_constraint_partial (hd.valid i) (i == 0)
    obtain ⟨h1, h2⟩ := (h r hr').1 he
    rcases h2 with h2 | ⟨h0, h2⟩
    · exact ⟨by rw [hd.nb]; omega, Or.inl ⟨hbu i r h2, hu i hi r h2 h1⟩⟩
    · have h0 : i = 0 := by simpa using h0
      subst h0
      refine ⟨by rw [hd.nb]; exact h2, ?_⟩
      by_cases hc : r < (p.cd 0).nbu
      · exact Or.inl ⟨hbu 0 r hc, hu 0 hi r hc h1⟩
      · exact Or.inr ⟨rfl, hbx r (by omega) h2, hx r (by omega) h2 h1⟩
  let zs : Sol K := ⟨fun _ _ => 0, fun _ _ => 0, fun _ _ => 0⟩
  have hrel := scaleWith_rel o (relaxQp useCon conH hs p q old) m zs zs hw hun f hf hf1
  generalize hR : (scaleQpWith o.scaleObj o.scaleCon f (relaxQp useCon conH hs p q old) m).qp = R at *
  have hst : ∀ i, q.N < i → R.st i = (relaxQp useCon conH hs p q old).st i := by
    intro i hi
    rw [← hR]
    simp only [scaleQpWith]
    exact if_neg (Nat.not_le.2 hi)
  have hN : R.N = q.N := hrel.N
  have hnu : R.nu = q.nu := hrel.nu
  have hnx : R.nx = q.nx := hrel.nx
  have hnuxR : ∀ i, (R.st i).nux = (q.st i).nux := by
    intro i
    by_cases hi : i ≤ q.N
    · exact hrel.nux i hi
    · rw [hst i (by omega)]; rfl
  have hnbR : ∀ i, (R.st i).nb = (q.st i).nb := by
    intro i
    by_cases hi : i ≤ q.N
    · exact hrel.nb i hi
    · rw [hst i (by omega)]; rfl
  have hngR : ∀ i, (R.st i).ng = (q.st i).ng := by
    intro i
    by_cases hi : i ≤ q.N
    · exact hrel.ng i hi
    · rw [hst i (by omega)]; rfl
  have hnsR : ∀ i, (R.st i).ns = (q.st i).ns + p.nns i := by
    intro i
    by_cases hi : i ≤ q.N
    · exact hrel.ns i hi
    · rw [hst i (by omega)]; rfl
  have hidxbR : ∀ i, (R.st i).idxb = (q.st i).idxb := by
    intro i
    by_cases hi : i ≤ q.N
    · exact hrel.idxb i hi
    · rw [hst i (by omega)]; rfl
  have hidxsR : ∀ i, (R.st i).idxs = relRev (i == 0) (p.cd i) (p.idxs i) := by
    intro i
    by_cases hi : i ≤ q.N
    · exact hrel.idxs i hi
    · rw [hst i (by omega)]; rfl
  have hmR : ∀ i, (R.st i).m = (q.st i).m := by
    intro i; unfold Stage.m; rw [hnbR, hngR]
  have hbok : ∀ i ≤ q.N, ∀ r < (q.st i).nb, ∀ v, BoundOk (q.st i) r v → BoundOk (R.st i) r v := by
    intro i hi r hr v hv
    have hrm : r < (q.st i).m := by unfold Stage.m; omega
    have hmask : (R.st i).mask = ((relaxQp useCon conH hs p q old).st i).mask := hrel.mask i hi
    obtain ⟨d1, -⟩ := relax_d (useCon := useCon) (hs := hs) (p.nns i)
      (relRev (i == 0) (p.cd i) (p.idxs i)) (conH i) (q.st i) (old i)
    obtain ⟨m1, -⟩ := relax_mask (useCon := useCon) (hs := hs) (p.nns i)
      (relRev (i == 0) (p.cd i) (p.idxs i)) (conH i) (q.st i) (old i)
    have hρ := hrel.ρ_bnd i hi r hr
    unfold BoundOk
    rw [hmR i, hmask]
    constructor
    · intro hm
      have := hrel.dl i hi r hrm hm
      rw [hρ, one_mul] at this
      rw [this]
      have e := d1 r (by omega)
      have e2 := m1 r (by omega)
      exact e ▸ hv.1 (e2 ▸ hm)
    · intro hm
      have := hrel.du i hi r hrm hm
      rw [hρ, one_mul] at this
      have e := d1 ((q.st i).m + r) (by omega)
      have e2 := m1 ((q.st i).m + r) (by omega)
      have h2 := hv.2 (e2 ▸ hm)
      rw [← e] at h2
      have this' : (R.st i).d ((q.st i).m + r) = (relaxStage useCon (conH i) hs (p.nns i)
        (relRev (i == 0) (p.cd i) (p.idxs i)) (q.st i) (old i)).d ((q.st i).m + r) := this
      rw [this']; exact h2
  refine soft_feasible R (fun i => by rw [hnuxR, hnu, hnx]; exact hq.nux i) u x0
    (fun i j hj => by rw [hidxbR, hnuxR]; rw [hnbR] at hj; exact hq.idxb i j hj)
    (fun i r hr => by
      rw [hidxsR, hnsR]; rw [hmR] at hr; exact relax_idx hd i r hr) ?_
  intro i hi r hr he
  rw [hN] at hi
  rw [hmR] at hr
  rw [hidxsR] at he
  rw [hnbR, hidxbR, hidxbR, hnu]
  obtain ⟨hb, h⟩ := hrows i hi r hr he
  refine ⟨hb, ?_⟩
  rcases h with ⟨h1, h2⟩ | ⟨h0, h1, h2⟩
  · exact Or.inl ⟨h1, hbok i hi r hb _ h2⟩
  · subst h0
    exact Or.inr ⟨rfl, h1, hbok 0 hi r hb _ h2⟩

/-! ## C21: Byrd-Omojokun bounds -/

/-- **C21** (part 2, partial: factor below one missing, see `C21_small_factor_infeasible`): let `w` be any feasible point of the (scaled) relaxed
QP.  After the bound update with a relaxation factor `F ≥ 1` the (scaled) nominal QP has a feasible point,
namely `w` without the added slacks: same states, controls and user slacks.  The scaling options are shared
by both QPs, the objective factors may differ.  The lower bounds of the added slacks are zero (memory zeroed
at creation and never written, `relax_d`). -/
theorem C21_nominal_feasible_partial (hd : Describes p q) (hq : WF q)
    (ho : ∀ i r, (old i).mask r = 0 ∨ (old i).mask r = 1)
    (hold : ∀ i, ∀ j < p.nns i, (old i).d (2 * (q.st i).m + ((q.st i).ns + j)) = 0 ∧
      (old i).d (2 * (q.st i).m + (2 * (q.st i).ns + p.nns i + j)) = 0)
    (o : Opts K) (fN fR : K) (hfN : 0 < fN) (hfR : 0 < fR)
    (hN1 : o.scaleObj = false → fN = 1) (hR1 : o.scaleObj = false → fR = 1) (mN mR : Mem K)
    (F : K) (hF : 1 ≤ F) (w : Nat → Nat → K)
    (hw : Feasible (scaleQpWith o.scaleObj o.scaleCon fR (relaxQp useCon conH hs p q old) mR).qp w) :
    Feasible (boQp F p (scaleQpWith o.scaleObj o.scaleCon fN q mN).qp
        (scaleQpWith o.scaleObj o.scaleCon fR (relaxQp useCon conH hs p q old) mR).qp w)
      (fun i => dropAdded (q.st i).nux (q.st i).ns (p.nns i) (w i)) := by
  have hwf := relax_wf (useCon := useCon) (conH := conH) (hs := hs) hd hq ho
  have hun := relax_unshared (useCon := useCon) (conH := conH) (hs := hs) (old := old) hd
  let zs : Sol K := ⟨fun _ _ => 0, fun _ _ => 0, fun _ _ => 0⟩
  have rS := scaleWith_rel o q mN zs zs hq (nom_unshared hd) fN hfN hN1
  have rR := scaleWith_rel o (relaxQp useCon conH hs p q old) mR zs zs hwf hun fR hfR hR1
  generalize hρN : (fun i r => if o.scaleCon ∧ (q.st i).nb ≤ r then conFactor (q.st i) (r - (q.st i).nb)
    else 1) = ρ at rS
  have hρR : (fun i r => if o.scaleCon ∧ ((relaxQp useCon conH hs p q old).st i).nb ≤ r then
      conFactor ((relaxQp useCon conH hs p q old).st i) (r - ((relaxQp useCon conH hs p q old).st i).nb)
    else 1) = fun i r => if r < (q.st i).m then ρ i r else
      (if o.scaleCon ∧ ((relaxQp useCon conH hs p q old).st i).nb ≤ r then
        conFactor ((relaxQp useCon conH hs p q old).st i) (r - ((relaxQp useCon conH hs p q old).st i).nb)
      else 1) := by
    funext i r
    split_ifs with h1 h2 h2 <;> try rfl
    · rw [← hρN]
      have h1' : o.scaleCon ∧ (q.st i).nb ≤ r := h1
      simp only
      rw [if_pos h1']
      obtain ⟨d1, -⟩ := relax_d (useCon := useCon) (hs := hs) (p.nns i)
        (relRev (i == 0) (p.cd i) (p.idxs i)) (conH i) (q.st i) (old i)
      obtain ⟨m1, -⟩ := relax_mask (useCon := useCon) (hs := hs) (p.nns i)
        (relRev (i == 0) (p.cd i) (p.idxs i)) (conH i) (q.st i) (old i)
      unfold Stage.m at h2 d1 m1
      have h3 := h1'.2
      show conFactor (relaxStage useCon (conH i) hs (p.nns i) (relRev (i == 0) (p.cd i) (p.idxs i))
        (q.st i) (old i)) (r - (q.st i).nb) = _
      simp only [conFactor]
      show 1 / cmax 1 (cmax (cmax |_ * _| |_ * _|) (colNorm (q.st i).nux (q.st i).DCt _)) = _
      have e1 := d1 ((q.st i).nb + (r - (q.st i).nb)) (by omega)
      have e2 := d1 (2 * (q.st i).nb + (q.st i).ng + (r - (q.st i).nb)) (by omega)
      have e3 := m1 ((q.st i).nb + (r - (q.st i).nb)) (by omega)
      have e4 := m1 (2 * (q.st i).nb + (q.st i).ng + (r - (q.st i).nb)) (by omega)
      rw [← e1, ← e2, ← e3, ← e4]
      rfl
    · rw [← hρN]
      have h1' : ¬ (o.scaleCon ∧ (q.st i).nb ≤ r) := h1
      simp only
      rw [if_neg h1']
  rw [hρR] at rR
  have hρR' : ∀ i, ∀ r < (q.st i).m, (fun i r => if r < (q.st i).m then ρ i r else
      (if o.scaleCon ∧ ((relaxQp useCon conH hs p q old).st i).nb ≤ r then
        conFactor ((relaxQp useCon conH hs p q old).st i) (r - ((relaxQp useCon conH hs p q old).st i).nb)
      else 1)) i r = ρ i r := fun i r hr => if_pos hr
  generalize (fun i r => if r < (q.st i).m then ρ i r else
      (if o.scaleCon ∧ ((relaxQp useCon conH hs p q old).st i).nb ≤ r then
        conFactor ((relaxQp useCon conH hs p q old).st i) (r - ((relaxQp useCon conH hs p q old).st i).nb)
      else 1)) = ρ' at rR hρR'
  generalize (fun i k => if o.scaleCon then tau (q.st i) (conFactor (q.st i)) (q.st i).ng
          (if k < (q.st i).ns then k else k - (q.st i).ns) else 1) = T at rS
  generalize (fun i k => if o.scaleCon then tau ((relaxQp useCon conH hs p q old).st i)
          (conFactor ((relaxQp useCon conH hs p q old).st i)) ((relaxQp useCon conH hs p q old).st i).ng
          (if k < ((relaxQp useCon conH hs p q old).st i).ns then k
            else k - ((relaxQp useCon conH hs p q old).st i).ns) else 1) = T' at rR
  generalize (scaleQpWith o.scaleObj o.scaleCon fR (relaxQp useCon conH hs p q old) mR).qp = R at *
  generalize (scaleQpWith o.scaleObj o.scaleCon fN q mN).qp = S at *
  -- dimensions
  have hSN : S.N = q.N := rS.N
  have hRN : R.N = q.N := rR.N
  have sm : ∀ i ≤ q.N, (S.st i).m = (q.st i).m := fun i hi => rS.m_eq i hi
  have rm : ∀ i ≤ q.N, (R.st i).m = (q.st i).m := fun i hi => rR.m_eq i hi
  have rns : ∀ i ≤ q.N, (R.st i).ns = (q.st i).ns + p.nns i := fun i hi => rR.ns i hi
  have snux : ∀ i ≤ q.N, (S.st i).nux = (q.st i).nux := rS.nux
  have rnux : ∀ i ≤ q.N, (R.st i).nux = (q.st i).nux := rR.nux
  have rmask : ∀ i ≤ q.N, (R.st i).mask = ((relaxQp useCon conH hs p q old).st i).mask := rR.mask
  have ridx : ∀ i ≤ q.N, (R.st i).idxs = relRev (i == 0) (p.cd i) (p.idxs i) := rR.idxs
  have sidx : ∀ i ≤ q.N, (S.st i).idxs = (q.st i).idxs := rS.idxs
  let w' : Nat → Nat → K := fun i => dropAdded (q.st i).nux (q.st i).ns (p.nns i) (w i)
  have hdrop : ∀ i, ∀ j < (q.st i).nux + (q.st i).ns, w' i j = w i j := fun i j hj => if_pos hj
  have hdrop2 : ∀ i, ∀ j, (q.st i).nux + (q.st i).ns ≤ j → w' i j = w i (j + p.nns i) :=
    fun i j hj => if_neg (by omega)
  have D := fun i => relax_d (useCon := useCon) (hs := hs) (p.nns i)
      (relRev (i == 0) (p.cd i) (p.idxs i)) (conH i) (q.st i) (old i)
  have M := fun i => relax_mask (useCon := useCon) (hs := hs) (p.nns i)
      (relRev (i == 0) (p.cd i) (p.idxs i)) (conH i) (q.st i) (old i)
  -- left-hand sides agree
  have hlhs : ∀ i ≤ q.N, ∀ r < (q.st i).m, (S.st i).lhs (w' i) r = (R.st i).lhs (w i) r := by
    intro i hi r hr
    unfold Stage.lhs
    rw [rS.nb i hi, show (R.st i).nb = (q.st i).nb from rR.nb i hi, snux i hi, rnux i hi, rS.idxb i hi,
      show (R.st i).idxb = (q.st i).idxb from rR.idxb i hi]
    split
    · next hb => exact hdrop i _ (by have := hq.idxb i r hb; omega)
    · next hb =>
      unfold Stage.m at hr
      refine sum_congr rfl fun c hc => ?_
      have hc := mem_range.1 hc
      rw [hdrop i c (by omega), rS.D i hi c hc _ (by omega)]
      have := rR.D i hi c hc (r - (q.st i).nb) (by show _ < (q.st i).ng; omega)
      rw [this]
      rw [show ((relaxQp useCon conH hs p q old).st i).nb = (q.st i).nb from rfl]
      rw [hρR' i _ (by unfold Stage.m; omega)]
      rfl
  -- row bounds agree
  have hdl : ∀ i ≤ q.N, ∀ r < (q.st i).m, (q.st i).mask r ≠ 0 →
      (R.st i).mask r ≠ 0 ∧ (S.st i).d r = (R.st i).d r := by
    intro i hi r hr hm
    have e := (M i).1 r (by omega)
    have hm' : ((relaxQp useCon conH hs p q old).st i).mask r ≠ 0 := by
      show (relaxStage useCon (conH i) hs (p.nns i) _ (q.st i) (old i)).mask r ≠ 0
      rw [e]; exact hm
    refine ⟨by rw [rmask i hi]; exact hm', ?_⟩
    rw [rS.dl i hi r hr hm, rR.dl i hi r hr hm', hρR' i r hr]
    congr 1
    exact ((D i).1 r (by omega)).symm
  have hdu : ∀ i ≤ q.N, ∀ r < (q.st i).m, (q.st i).mask ((q.st i).m + r) ≠ 0 →
      (R.st i).mask ((q.st i).m + r) ≠ 0 ∧ (S.st i).d ((q.st i).m + r) = (R.st i).d ((q.st i).m + r) := by
    intro i hi r hr hm
    have e := (M i).1 ((q.st i).m + r) (by omega)
    have hm' : ((relaxQp useCon conH hs p q old).st i).mask ((q.st i).m + r) ≠ 0 := by
      show (relaxStage useCon (conH i) hs (p.nns i) _ (q.st i) (old i)).mask _ ≠ 0
      rw [e]; exact hm
    refine ⟨by rw [rmask i hi]; exact hm', ?_⟩
    have h1 := rR.du i hi r hr hm'
    rw [rS.du i hi r hr hm, show (R.st i).d ((q.st i).m + r) = _ from h1, hρR' i r hr]
    congr 1
    exact ((D i).1 _ (by omega)).symm
  -- slack bounds
  have hslackmask : ∀ i ≤ q.N, ∀ k < 2 * ((q.st i).ns + p.nns i),
      (R.st i).mask (2 * (q.st i).m + k) ≠ 0 := by
    intro i hi k hk
    rw [rmask i hi]
    show (relaxStage useCon (conH i) hs (p.nns i) _ (q.st i) (old i)).mask _ ≠ 0
    rw [(M i).2.1 k hk]; exact one_ne_zero
  have hgapS : ∀ i ≤ q.N, ∀ k < 2 * ((q.st i).ns + p.nns i),
      0 ≤ w i ((q.st i).nux + k) - (R.st i).d (2 * (q.st i).m + k) := by
    intro i hi k hk
    have := hw.slk i (hRN ▸ hi) k (by rw [rns i hi]; exact hk) (by rw [rm i hi]; exact hslackmask i hi k hk)
    unfold Stage.gapS at this
    rw [rnux i hi, rm i hi] at this
    exact this
  have hadd : ∀ i ≤ q.N, ∀ c < p.nns i, 0 ≤ w i ((q.st i).nux + ((q.st i).ns + c)) ∧
      0 ≤ w i ((q.st i).nux + (2 * (q.st i).ns + p.nns i + c)) := by
    intro i hi c hc
    have z1 : (R.st i).d (2 * (q.st i).m + ((q.st i).ns + c)) = 0 := by
      have := rR.ds i hi ((q.st i).ns + c) (by show _ < 2 * ((q.st i).ns + p.nns i); omega)
      rw [show (R.st i).d (2 * (q.st i).m + ((q.st i).ns + c)) = _ from this,
        show ((relaxQp useCon conH hs p q old).st i).d (2 * ((relaxQp useCon conH hs p q old).st i).m +
          ((q.st i).ns + c)) = _ from (D i).2.2.2.1 c hc, (hold i c hc).1, mul_zero]
    have z2 : (R.st i).d (2 * (q.st i).m + (2 * (q.st i).ns + p.nns i + c)) = 0 := by
      have := rR.ds i hi (2 * (q.st i).ns + p.nns i + c) (by show _ < 2 * ((q.st i).ns + p.nns i); omega)
      rw [show (R.st i).d (2 * (q.st i).m + (2 * (q.st i).ns + p.nns i + c)) = _ from this,
        show ((relaxQp useCon conH hs p q old).st i).d (2 * ((relaxQp useCon conH hs p q old).st i).m +
          (2 * (q.st i).ns + p.nns i + c)) = _ from (D i).2.2.2.2 c hc, (hold i c hc).2, mul_zero]
    have a := hgapS i hi ((q.st i).ns + c) (by omega)
    have b := hgapS i hi (2 * (q.st i).ns + p.nns i + c) (by omega)
    rw [z1, sub_zero] at a
    rw [z2, sub_zero] at b
    exact ⟨a, b⟩
  have hBO := fun i (hi : i ≤ q.N) => bo_fold F (S.st i) (R.st i) (w i) (p.idxns i)
    (idxns_nodup _ _ _) (by
      intro c hc
      rw [sm i hi, hd.m i]
      exact ((mem_idxns _ _ _ _).1 hc).1) (S.st i).d
  refine ⟨?_, ?_, ?_, ?_⟩
  · intro i hi c hc
    have hi' : i < q.N := hSN ▸ hi
    have hc' : c < q.nx (i + 1) := by rw [← rS.nx]; exact hc
    have hdyn := hw.dyn i (hRN ▸ hi') c (by rw [rR.nx]; exact hc')
    show (∑ r ∈ range (S.st i).nux, (S.st i).BAbt r c * w' i r) + (S.st i).b c
      = w' (i + 1) (S.nu (i + 1) + c)
    have e1 : S.nu (i + 1) = q.nu (i + 1) := by rw [rS.nu]
    have e2 : R.nu (i + 1) = q.nu (i + 1) := by rw [rR.nu]; rfl
    have hnx := hq.nux (i + 1)
    rw [e1, hdrop (i + 1) _ (by omega), snux i hi'.le, rS.B i hi'.le, rS.b i hi'.le]
    rw [e2, rnux i hi'.le, rR.B i hi'.le, rR.b i hi'.le] at hdyn
    rw [← hdyn]
    congr 1
    exact sum_congr rfl fun r hr => by rw [hdrop i r (by have := mem_range.1 hr; omega)]; rfl
  · intro i hi r hr hm
    have hi : i ≤ q.N := hSN ▸ hi
    have hr : r < (q.st i).m := by rw [← sm i hi]; exact hr
    have hm : (q.st i).mask r ≠ 0 := by
      have : (S.st i).mask r ≠ 0 := hm
      rw [rS.mask i hi] at this; exact this
    obtain ⟨hmR, hdd⟩ := hdl i hi r hr hm
    have hg := hw.low i (hRN ▸ hi) r (by rw [rm i hi]; exact hr) hmR
    show 0 ≤ (S.st i).lhs (w' i) r + (S.st i).sl (w' i) r -
      (p.idxns i).foldl (boStep F (S.st i) (R.st i) (w i)) (S.st i).d r
    rw [(hBO i hi).1 r (by rw [sm i hi]; exact hr), hlhs i hi r hr, hdd]
    unfold Stage.gapL at hg
    rcases rows hd i r hr with ⟨h1, h2, c, hc, h3⟩ | ⟨h1, h2, h3⟩
    · rw [if_pos h1]
      have e1 : (S.st i).sl (w' i) r = 0 := by unfold Stage.sl; rw [sidx i hi, h2]; simp
      have e2 : (R.st i).sl (w i) r = w i ((q.st i).nux + ((q.st i).ns + c)) := by
        unfold Stage.sl
        rw [ridx i hi, h3, rnux i hi, if_pos (Int.natCast_nonneg _), Int.toNat_natCast]
      rw [ridx i hi, h3, snux i hi, Int.toNat_natCast, e1]
      rw [e2] at hg
      have := (hadd i hi c hc).1
      nlinarith [mul_nonneg (sub_nonneg.2 hF) this]
    · rw [if_neg h1]
      have e : (S.st i).sl (w' i) r = (R.st i).sl (w i) r := by
        unfold Stage.sl
        rw [sidx i hi, ridx i hi, h2, snux i hi, rnux i hi]
        rcases h3 with h3 | ⟨k, hk, h3⟩
        · rw [h3]; simp
        · rw [h3, if_pos (Int.natCast_nonneg _), if_pos (Int.natCast_nonneg _), Int.toNat_natCast,
            hdrop i _ (by omega)]
      rw [e]; exact hg
  · intro i hi r hr hm
    have hi : i ≤ q.N := hSN ▸ hi
    have hr : r < (q.st i).m := by rw [← sm i hi]; exact hr
    have hm : (q.st i).mask ((q.st i).m + r) ≠ 0 := by
      have : (S.st i).mask ((S.st i).m + r) ≠ 0 := hm
      rw [rS.mask i hi, sm i hi] at this; exact this
    obtain ⟨hmR, hdd⟩ := hdu i hi r hr hm
    have hg := hw.upp i (hRN ▸ hi) r (by rw [rm i hi]; exact hr) (by rw [rm i hi]; exact hmR)
    show 0 ≤ -(S.st i).lhs (w' i) r + (S.st i).su (w' i) r -
      (p.idxns i).foldl (boStep F (S.st i) (R.st i) (w i)) (S.st i).d ((S.st i).m + r)
    rw [(hBO i hi).2.1 r (by rw [sm i hi]; exact hr), hlhs i hi r hr, sm i hi, hdd]
    unfold Stage.gapU at hg
    rw [rm i hi] at hg
    rcases rows hd i r hr with ⟨h1, h2, c, hc, h3⟩ | ⟨h1, h2, h3⟩
    · rw [if_pos h1]
      have e1 : (S.st i).su (w' i) r = 0 := by unfold Stage.su; rw [sidx i hi, h2]; simp
      have e3 : (q.st i).nux + ((q.st i).ns + p.nns i) + ((q.st i).ns + c)
          = (q.st i).nux + (2 * (q.st i).ns + p.nns i + c) := by omega
      have e2 : (R.st i).su (w i) r = w i ((q.st i).nux + (2 * (q.st i).ns + p.nns i + c)) := by
        unfold Stage.su
        rw [ridx i hi, h3, rnux i hi, rns i hi, if_pos (Int.natCast_nonneg _), Int.toNat_natCast, e3]
      rw [ridx i hi, h3, snux i hi, rns i hi, Int.toNat_natCast, e1, e3]
      rw [e2] at hg
      have := (hadd i hi c hc).2
      nlinarith [mul_nonneg (sub_nonneg.2 hF) this]
    · rw [if_neg h1]
      have e : (S.st i).su (w' i) r = (R.st i).su (w i) r := by
        unfold Stage.su
        rw [sidx i hi, ridx i hi, h2, snux i hi, rnux i hi, rS.ns i hi, rns i hi]
        rcases h3 with h3 | ⟨k, hk, h3⟩
        · rw [h3]; simp
        · rw [h3, if_pos (Int.natCast_nonneg _), if_pos (Int.natCast_nonneg _), Int.toNat_natCast,
            hdrop2 i _ (by omega)]
          congr 1; omega
      rw [e]; exact hg
  · intro i hi k hk hm
    have hi : i ≤ q.N := hSN ▸ hi
    have hk : k < 2 * (q.st i).ns := by rw [← rS.ns i hi]; exact hk
    show 0 ≤ w' i ((S.st i).nux + k) -
      (p.idxns i).foldl (boStep F (S.st i) (R.st i) (w i)) (S.st i).d (2 * (S.st i).m + k)
    rw [(hBO i hi).2.2 _ (by omega), sm i hi, snux i hi, rS.ds i hi k hk]
    -- slack `k` belongs to a row, which fixes both scaling factors
    have hT : ∀ j < (q.st i).ns, T' i j = T i j ∧
        T' i ((q.st i).ns + p.nns i + j) = T i ((q.st i).ns + j) := by
      intro j hj
      rw [hd.ns] at hj
      have hlt := build_lt (hd.valid i) j hj
      have n1 := (nomRev_char (hd.valid i)).1 j hj
      have r1 := (relRev_char (hd.valid i) (i == 0)).1 j hj
      rw [← hd.m i] at hlt
      have a := rS.T_row i hi _ hlt j (by rw [hd.idxs i]; exact n1)
      have b := rR.T_row i hi (buildIdxs (p.cd i) (p.sbu i) (p.sbx i) (p.sg i) (p.sh i) j) hlt j r1
      have c := hρR' i _ hlt
      exact ⟨by rw [b.2.1, a.2.1, c], by
        have := b.2.2
        rw [show ((relaxQp useCon conH hs p q old).st i).ns = (q.st i).ns + p.nns i from rfl] at this
        rw [this, a.2.2, c]⟩
    by_cases hk1 : k < (q.st i).ns
    · have hg := hgapS i hi k (by omega)
      have e := rR.ds i hi k (by show _ < 2 * ((q.st i).ns + p.nns i); omega)
      rw [show (R.st i).d (2 * (q.st i).m + k) = _ from e, (hT k hk1).1,
        show ((relaxQp useCon conH hs p q old).st i).d (2 * ((relaxQp useCon conH hs p q old).st i).m + k)
          = _ from (D i).2.1 k hk1] at hg
      rw [hdrop i _ (by omega)]
      exact hg
    · have hj : k - (q.st i).ns < (q.st i).ns := by omega
      have hg := hgapS i hi (k + p.nns i) (by omega)
      have e := rR.ds i hi (k + p.nns i) (by show _ < 2 * ((q.st i).ns + p.nns i); omega)
      have hT2 := (hT _ hj).2
      rw [show (q.st i).ns + p.nns i + (k - (q.st i).ns) = k + p.nns i by omega,
        show (q.st i).ns + (k - (q.st i).ns) = k by omega] at hT2
      have hd3 := (D i).2.2.1 _ hj
      rw [show (q.st i).ns + p.nns i + (k - (q.st i).ns) = k + p.nns i by omega,
        show (q.st i).ns + (k - (q.st i).ns) = k by omega] at hd3
      rw [show (R.st i).d (2 * (q.st i).m + (k + p.nns i)) = _ from e, hT2,
        show ((relaxQp useCon conH hs p q old).st i).d (2 * ((relaxQp useCon conH hs p q old).st i).m +
          (k + p.nns i)) = _ from hd3] at hg
      rw [hdrop2 i _ (by omega), add_assoc]
      exact hg

/-! ## C21: what the relaxed QP minimises, and the infeasibility measures -/

theorem sum_four (a b : Nat) (g : Nat → K) :
    ∑ j ∈ range (2 * (a + b)), g j = (∑ j ∈ range a, g j) + (∑ j ∈ range b, g (a + j)) +
      (∑ j ∈ range a, g (a + b + j)) + ∑ j ∈ range b, g (2 * a + b + j) := by
  rw [show 2 * (a + b) = a + b + a + b by omega, sum_range_add, sum_range_add, sum_range_add]
  congr 1
  refine sum_congr rfl fun j _ => by congr 1; omega

theorem relax_obj (k : Nat) (rev : Nat → Int) (cH : Nat → Nat → K) (s o : Stage K) :
    let t := relaxStage false cH hs k rev s o
    (∀ r < s.nux, ∀ c < s.nux, t.H r c = if r = c then hs else 0) ∧
    (∀ r < s.nux + s.ns, t.g r = 0) ∧ (∀ j < k, t.g (s.nux + (s.ns + j)) = 1) ∧
    (∀ j < s.ns, t.g (s.nux + (s.ns + k + j)) = 0) ∧ (∀ j < k, t.g (s.nux + (2 * s.ns + k + j)) = 1) ∧
    (∀ j < s.ns, t.Z j = hs) ∧ (∀ j < k, t.Z (s.ns + j) = 0) ∧
    (∀ j < s.ns, t.Z (s.ns + k + j) = hs) ∧ (∀ j < k, t.Z (2 * s.ns + k + j) = 0) := by
  simp only [relaxStage, vecse, Bool.false_eq_true, if_false]
  refine ⟨fun r hr c hc => ?_, fun r hr => ?_, fun j hj => ?_, fun j hj => ?_, fun j hj => ?_,
    fun j hj => ?_, fun j hj => ?_, fun j hj => ?_, fun j hj => ?_⟩
  · rw [if_pos ⟨hr, hc⟩]
  · rw [if_neg (by omega), if_neg (by omega), if_neg (by omega), if_pos (by omega)]
  · rw [if_neg (by omega), if_pos (by omega)]
  · rw [if_neg (by omega), if_neg (by omega), if_pos (by omega)]
  · rw [if_pos (by omega)]
  · rw [if_neg (by omega), if_pos (by omega)]
  · rw [if_neg (by omega), if_neg (by omega), if_neg (by omega), if_pos (by omega)]
  · rw [if_pos (by omega)]
  · rw [if_neg (by omega), if_neg (by omega), if_pos (by omega)]

/-- **C21** (objective): with the default Hessian the relaxed QP minimises the sum of all added slacks plus
`hs / 2` times the squared norm of states, controls and user slacks. -/
theorem C21_relaxed_objective (ux : Nat → Nat → K) :
    value (relaxQp false conH hs p q old) ux = ∑ i ∈ range (q.N + 1),
      (hs / 2 * (∑ r ∈ range (q.st i).nux, ux i r ^ 2) +
       hs / 2 * (∑ j ∈ range (q.st i).ns, (ux i ((q.st i).nux + j) ^ 2 +
          ux i ((q.st i).nux + ((q.st i).ns + p.nns i + j)) ^ 2)) +
       ∑ j ∈ range (p.nns i), (ux i ((q.st i).nux + ((q.st i).ns + j)) +
          ux i ((q.st i).nux + (2 * (q.st i).ns + p.nns i + j)))) := by
  unfold value
  refine sum_congr rfl fun i _ => ?_
  obtain ⟨hH, g1, g2, g3, g4, z1, z2, z3, z4⟩ := relax_obj (hs := hs) (p.nns i)
    (relRev (i == 0) (p.cd i) (p.idxs i)) (conH i) (q.st i) (old i)
  have est : (relaxQp false conH hs p q old).st i = relaxStage false (conH i) hs (p.nns i)
    (relRev (i == 0) (p.cd i) (p.idxs i)) (q.st i) (old i) := rfl
  rw [est]
  generalize ht : relaxStage false (conH i) hs (p.nns i)
    (relRev (i == 0) (p.cd i) (p.idxs i)) (q.st i) (old i) = t at *
  have e1 : t.nux = (q.st i).nux := by rw [← ht]; rfl
  have e2 : t.ns = (q.st i).ns + p.nns i := by rw [← ht]; rfl
  rw [e1, e2, sum_four]
  have a1 : ∑ r ∈ range (q.st i).nux, ux i r * ∑ c ∈ range (q.st i).nux, t.H r c * ux i c
      = hs * ∑ r ∈ range (q.st i).nux, ux i r ^ 2 := by
    rw [mul_sum]
    refine sum_congr rfl fun r hr => ?_
    have hr := mem_range.1 hr
    have : ∑ c ∈ range (q.st i).nux, t.H r c * ux i c = hs * ux i r := by
      rw [sum_eq_single r]
      · rw [hH r hr r hr, if_pos rfl]
      · intro c hc hne
        rw [hH r hr c (mem_range.1 hc), if_neg (Ne.symm hne), zero_mul]
      · intro h; exact absurd (mem_range.2 hr) h
    rw [this]; ring
  have a2 : ∑ r ∈ range (q.st i).nux, t.g r * ux i r = 0 :=
    sum_eq_zero fun r hr => by rw [g1 r (by have := mem_range.1 hr; omega), zero_mul]
  rw [a1, a2]
  have b1 : ∀ j ∈ range (q.st i).ns, 1 / 2 * t.Z j * ux i ((q.st i).nux + j) ^ 2 +
      t.g ((q.st i).nux + j) * ux i ((q.st i).nux + j) = hs / 2 * ux i ((q.st i).nux + j) ^ 2 := by
    intro j hj
    have hj := mem_range.1 hj
    rw [z1 j hj, g1 _ (by omega)]; ring
  have b2 : ∀ j ∈ range (p.nns i), 1 / 2 * t.Z ((q.st i).ns + j) * ux i ((q.st i).nux + ((q.st i).ns + j)) ^ 2 +
      t.g ((q.st i).nux + ((q.st i).ns + j)) * ux i ((q.st i).nux + ((q.st i).ns + j))
      = ux i ((q.st i).nux + ((q.st i).ns + j)) := by
    intro j hj
    have hj := mem_range.1 hj
    rw [z2 j hj, g2 j hj]; ring
  have b3 : ∀ j ∈ range (q.st i).ns, 1 / 2 * t.Z ((q.st i).ns + p.nns i + j) *
      ux i ((q.st i).nux + ((q.st i).ns + p.nns i + j)) ^ 2 +
      t.g ((q.st i).nux + ((q.st i).ns + p.nns i + j)) * ux i ((q.st i).nux + ((q.st i).ns + p.nns i + j))
      = hs / 2 * ux i ((q.st i).nux + ((q.st i).ns + p.nns i + j)) ^ 2 := by
    intro j hj
    have hj := mem_range.1 hj
    rw [z3 j hj, g3 j hj]; ring
  have b4 : ∀ j ∈ range (p.nns i), 1 / 2 * t.Z (2 * (q.st i).ns + p.nns i + j) *
      ux i ((q.st i).nux + (2 * (q.st i).ns + p.nns i + j)) ^ 2 +
      t.g ((q.st i).nux + (2 * (q.st i).ns + p.nns i + j)) * ux i ((q.st i).nux + (2 * (q.st i).ns + p.nns i + j))
      = ux i ((q.st i).nux + (2 * (q.st i).ns + p.nns i + j)) := by
    intro j hj
    have hj := mem_range.1 hj
    rw [z4 j hj, g4 j hj]; ring
  rw [sum_congr rfl b1, sum_congr rfl b2, sum_congr rfl b3, sum_congr rfl b4, sum_add_distrib,
    sum_add_distrib, ← mul_sum, ← mul_sum]
  ring

/-- value of a row in the manual evaluation -/
theorem l1Row_eq (hd : Describes p q) (hq : WF q) (i r : Nat) (hr : r < (q.st i).m) (ux : Nat → K) :
    let rel := (relaxQp useCon conH hs p q old).st i
    let v := dropAdded (q.st i).nux (q.st i).ns (p.nns i) ux
    l1Row (q.st i).ns (p.nns i) rel ux r = (q.st i).lhs v r + (q.st i).sl v r ∧
    l1Row (q.st i).ns (p.nns i) rel ux ((q.st i).m + r) = (q.st i).lhs v r - (q.st i).su v r := by
  intro rel v
  have en : rel.nb + rel.ng = (q.st i).m := rfl
  have hv : (if r < rel.nb then ux (rel.idxb r) else ∑ c ∈ range rel.nux, rel.DCt c (r - rel.nb) * ux c)
      = (q.st i).lhs v r := by
    unfold Stage.lhs
    show (if r < (q.st i).nb then ux ((q.st i).idxb r) else
      ∑ c ∈ range (q.st i).nux, (q.st i).DCt c (r - (q.st i).nb) * ux c) = _
    split
    · next hb =>
      have := hq.idxb i r hb
      exact (if_pos (by omega)).symm
    · refine sum_congr rfl fun c hc => ?_
      have := mem_range.1 hc
      rw [show v c = ux c from if_pos (by omega)]
  have hidx : rel.idxs = relRev (i == 0) (p.cd i) (p.idxs i) := rfl
  have hcase : (¬ (0 < (q.st i).ns ∧ 0 ≤ rel.idxs r ∧ rel.idxs r < ((q.st i).ns : Int)) ∧
      (q.st i).sl v r = 0 ∧ (q.st i).su v r = 0) ∨
      ((0 < (q.st i).ns ∧ 0 ≤ rel.idxs r ∧ rel.idxs r < ((q.st i).ns : Int)) ∧
      (q.st i).sl v r = ux ((rel.idxs r).toNat + (q.st i).nux) ∧
      (q.st i).su v r = ux ((rel.idxs r).toNat + (q.st i).nux + (q.st i).ns + p.nns i)) := by
    rcases rows hd i r hr with ⟨-, h2, c, hc, h3⟩ | ⟨-, h2, h3⟩
    · left
      refine ⟨?_, ?_, ?_⟩
      · rw [hidx, h3]; omega
      · unfold Stage.sl; rw [h2]; simp
      · unfold Stage.su; rw [h2]; simp
    · rcases h3 with h3 | ⟨k, hk, h3⟩
      · left
        refine ⟨?_, ?_, ?_⟩
        · rw [hidx, h2, h3]; omega
        · unfold Stage.sl; rw [h3]; simp
        · unfold Stage.su; rw [h3]; simp
      · right
        refine ⟨?_, ?_, ?_⟩
        · rw [hidx, h2, h3]; omega
        · unfold Stage.sl
          rw [hidx, h2, h3, if_pos (Int.natCast_nonneg _), Int.toNat_natCast]
          rw [show v ((q.st i).nux + k) = ux ((q.st i).nux + k) from if_pos (by omega), Nat.add_comm]
        · unfold Stage.su
          rw [hidx, h2, h3, if_pos (Int.natCast_nonneg _), Int.toNat_natCast]
          rw [show v ((q.st i).nux + (q.st i).ns + k) = ux ((q.st i).nux + (q.st i).ns + k + p.nns i)
            from if_neg (by omega)]
          congr 1; omega
  simp only [l1Row]
  rw [en, if_pos hr, if_neg (show ¬ (q.st i).m + r < (q.st i).m by omega), Nat.add_sub_cancel_left, hv,
    if_pos hr, if_neg (show ¬ (q.st i).m + r < (q.st i).m by omega)]
  rcases hcase with ⟨h, e1, e2⟩ | ⟨h, e1, e2⟩
  · rw [e1, e2, add_zero, sub_zero]; exact ⟨if_neg h, if_neg h⟩
  · rw [e1, e2]; exact ⟨if_pos h, if_pos h⟩

/-- **C21** (manual infeasibility): the l1 infeasibility evaluated from the QP data is the total violation of
the rows of the nominal QP at the step without the added slacks. -/
theorem C21_l1_manual (hd : Describes p q) (hq : WF q) (i : Nat) (ux : Nat → K) :
    l1Manual (q.st i).ns (p.nns i) ((relaxQp useCon conH hs p q old).st i) ux
      = violation (q.st i) (dropAdded (q.st i).nux (q.st i).ns (p.nns i) ux) := by
  have M := relax_mask (useCon := useCon) (hs := hs) (p.nns i)
      (relRev (i == 0) (p.cd i) (p.idxs i)) (conH i) (q.st i) (old i)
  have D := relax_d (useCon := useCon) (hs := hs) (p.nns i)
      (relRev (i == 0) (p.cd i) (p.idxs i)) (conH i) (q.st i) (old i)
  unfold l1Manual violation
  have en : ((relaxQp useCon conH hs p q old).st i).nb + ((relaxQp useCon conH hs p q old).st i).ng
    = (q.st i).m := rfl
  have e2 : 2 * ((relaxQp useCon conH hs p q old).st i).nb + 2 * ((relaxQp useCon conH hs p q old).st i).ng
    = (q.st i).m + (q.st i).m := by rw [← en]; omega
  rw [e2, en, sum_range_add]
  congr 1
  · refine sum_congr rfl fun r hr => ?_
    have hr := mem_range.1 hr
    have hm : ((relaxQp useCon conH hs p q old).st i).mask r = (q.st i).mask r := M.1 r (by omega)
    have hdd : ((relaxQp useCon conH hs p q old).st i).d r = (q.st i).d r := D.1 r (by omega)
    rw [if_pos hr, hm, hdd, (l1Row_eq hd hq i r hr ux).1, cmax_eq_max]
    unfold Stage.gapL
    rw [neg_sub]
  · refine sum_congr rfl fun r hr => ?_
    have hr := mem_range.1 hr
    have hm : ((relaxQp useCon conH hs p q old).st i).mask ((q.st i).m + r) = (q.st i).mask ((q.st i).m + r) :=
      M.1 _ (by omega)
    have hdd : ((relaxQp useCon conH hs p q old).st i).d ((q.st i).m + r) = (q.st i).d ((q.st i).m + r) :=
      D.1 _ (by omega)
    rw [if_neg (show ¬ (q.st i).m + r < (q.st i).m by omega), hm, hdd, (l1Row_eq hd hq i r hr ux).2,
      cmax_eq_max]
    unfold Stage.gapU
    congr 2
    ring

theorem list_sum_le (f : Nat → K) (l : List Nat) (g : Nat → K) (hg : ∀ c (hc : c < l.length), f l[c] ≤ g c) :
    (l.map f).sum ≤ ∑ c ∈ range l.length, g c := by
  induction l generalizing g with
  | nil => simp
  | cons a l ih =>
    rw [List.map_cons, List.sum_cons, List.length_cons, sum_range_succ', add_comm]
    refine add_le_add (ih (fun c => g (c + 1)) fun c hc => hg (c + 1) (by simpa using hc)) ?_
    exact hg 0 (by simp)

theorem violation_eq_zero (s : Stage K) (v : Nat → K) (hmask : ∀ r, s.mask r = 0 ∨ s.mask r = 1) :
    violation s v = 0 ↔ (∀ r < s.m, s.mask r ≠ 0 → 0 ≤ s.gapL v r) ∧
      (∀ r < s.m, s.mask (s.m + r) ≠ 0 → 0 ≤ s.gapU v r) := by
  have n1 : ∀ r ∈ range s.m, (0 : K) ≤ if s.mask r = 1 then max 0 (- s.gapL v r) else 0 := by
    intro r _; split
    · exact le_max_left _ _
    · exact le_rfl
  have n2 : ∀ r ∈ range s.m, (0 : K) ≤ if s.mask (s.m + r) = 1 then max 0 (- s.gapU v r) else 0 := by
    intro r _; split
    · exact le_max_left _ _
    · exact le_rfl
  unfold violation
  rw [add_eq_zero_iff_of_nonneg (sum_nonneg n1) (sum_nonneg n2), sum_eq_zero_iff_of_nonneg n1,
    sum_eq_zero_iff_of_nonneg n2]
  constructor
  · rintro ⟨h1, h2⟩
    refine ⟨fun r hr hm => ?_, fun r hr hm => ?_⟩
    · have := h1 r (mem_range.2 hr)
      rw [if_pos ((hmask r).resolve_left hm), max_eq_left_iff] at this
      linarith
    · have := h2 r (mem_range.2 hr)
      rw [if_pos ((hmask _).resolve_left hm), max_eq_left_iff] at this
      linarith
  · rintro ⟨h1, h2⟩
    refine ⟨fun r hr => ?_, fun r hr => ?_⟩
    · split
      · next h => rw [max_eq_left_iff]; have := h1 r (mem_range.1 hr) (by rw [h]; exact one_ne_zero); linarith
      · rfl
    · split
      · next h => rw [max_eq_left_iff]; have := h2 r (mem_range.1 hr) (by rw [h]; exact one_ne_zero); linarith
      · rfl

/-- **C22** (meaning of zero infeasibility): the infeasibility measure of a step is zero iff the step
satisfies every row of the nominal QP. -/
theorem C22_zero_infeasibility_iff (hd : Describes p q) (hq : WF q) (i : Nat) (ux : Nat → K) :
    l1Manual (q.st i).ns (p.nns i) ((relaxQp useCon conH hs p q old).st i) ux = 0 ↔
      let v := dropAdded (q.st i).nux (q.st i).ns (p.nns i) ux
      (∀ r < (q.st i).m, (q.st i).mask r ≠ 0 → 0 ≤ (q.st i).gapL v r) ∧
      (∀ r < (q.st i).m, (q.st i).mask ((q.st i).m + r) ≠ 0 → 0 ≤ (q.st i).gapU v r) := by
  rw [C21_l1_manual hd hq, violation_eq_zero _ _ (hq.mask i)]

/-- **C21** (slack infeasibility): at a feasible point of the relaxed QP the nominal violation is at most
the sum of the added slacks, so zero added slacks mean that the step is feasible for the nominal QP. -/
theorem C21_violation_le_slacks (hd : Describes p q) (hq : WF q) (ux : Nat → Nat → K)
    (hf : Feasible (relaxQp useCon conH hs p q old) ux) (i : Nat) (hi : i ≤ q.N) :
    violation (q.st i) (dropAdded (q.st i).nux (q.st i).ns (p.nns i) (ux i))
      ≤ l1Slacks (q.st i).nux (q.st i).ns (p.nns i) (ux i) := by
  have M := relax_mask (useCon := useCon) (hs := hs) (p.nns i)
      (relRev (i == 0) (p.cd i) (p.idxs i)) (conH i) (q.st i) (old i)
  have D := relax_d (useCon := useCon) (hs := hs) (p.nns i)
      (relRev (i == 0) (p.cd i) (p.idxs i)) (conH i) (q.st i) (old i)
  generalize hvv : dropAdded (q.st i).nux (q.st i).ns (p.nns i) (ux i) = v
  have hlen := Soft.nns_eq hd i
  -- a sum over rows in which only the added rows contribute
  have key : ∀ (f : Nat → K) (g : Nat → K), (∀ r < (q.st i).m, r ∉ p.idxns i → f r = 0) →
      (∀ c (hc : c < (p.idxns i).length), f (p.idxns i)[c] ≤ g c) →
      ∑ r ∈ range (q.st i).m, f r ≤ ∑ c ∈ range (p.nns i), g c := by
    intro f g h0 hg
    have hsub : (p.idxns i).toFinset ⊆ range (q.st i).m := by
      intro r hr
      rw [List.mem_toFinset] at hr
      rw [mem_range, hd.m i]
      exact ((mem_idxns _ _ _ _).1 hr).1
    rw [← sum_subset hsub (fun r hr hn => h0 r (mem_range.1 hr) (by rwa [List.mem_toFinset] at hn)),
      List.sum_toFinset _ (show (p.idxns i).Nodup from idxns_nodup _ _ _), hlen]
    exact list_sum_le f (p.idxns i) g hg
  -- left-hand sides
  have hlhs : ∀ r < (q.st i).m, ((relaxQp useCon conH hs p q old).st i).lhs (ux i) r = (q.st i).lhs v r := by
    intro r hr
    unfold Stage.lhs
    show (if r < (q.st i).nb then ux i ((q.st i).idxb r) else
      ∑ c ∈ range (q.st i).nux, (q.st i).DCt c (r - (q.st i).nb) * ux i c) = _
    rw [← hvv]
    split
    · next hb =>
      have := hq.idxb i r hb
      exact (if_pos (by omega)).symm
    · refine sum_congr rfl fun c hc => ?_
      have := mem_range.1 hc
      congr 1
      exact (if_pos (by omega)).symm
  have hmL : ∀ r < (q.st i).m, (q.st i).mask r = 1 → 0 ≤ ((relaxQp useCon conH hs p q old).st i).gapL (ux i) r := by
    intro r hr hm
    refine hf.low i hi r hr ?_
    have : ((relaxQp useCon conH hs p q old).st i).mask r = (q.st i).mask r := M.1 r (by omega)
    rw [this, hm]; exact one_ne_zero
  have hmU : ∀ r < (q.st i).m, (q.st i).mask ((q.st i).m + r) = 1 →
      0 ≤ ((relaxQp useCon conH hs p q old).st i).gapU (ux i) r := by
    intro r hr hm
    refine hf.upp i hi r hr ?_
    have : ((relaxQp useCon conH hs p q old).st i).mask ((q.st i).m + r) = (q.st i).mask ((q.st i).m + r) :=
      M.1 _ (by omega)
    show ((relaxQp useCon conH hs p q old).st i).mask ((q.st i).m + r) ≠ 0
    rw [this, hm]; exact one_ne_zero
  have hdL : ∀ r < (q.st i).m, ((relaxQp useCon conH hs p q old).st i).d r = (q.st i).d r :=
    fun r hr => D.1 r (by omega)
  have hdU : ∀ r < (q.st i).m, ((relaxQp useCon conH hs p q old).st i).d (((relaxQp useCon conH hs p q old).st i).m + r)
      = (q.st i).d ((q.st i).m + r) := fun r hr => D.1 ((q.st i).m + r) (by omega)
  -- rows that keep their slack
  have keep : ∀ r < (q.st i).m, r ∉ p.idxns i →
      ((relaxQp useCon conH hs p q old).st i).sl (ux i) r = (q.st i).sl v r ∧
      ((relaxQp useCon conH hs p q old).st i).su (ux i) r = (q.st i).su v r := by
    intro r hr hn
    rcases rows hd i r hr with ⟨h1, -⟩ | ⟨-, h2, h3⟩
    · exact absurd h1 hn
    · unfold Stage.sl Stage.su
      show (if 0 ≤ relRev (i == 0) (p.cd i) (p.idxs i) r then
          ux i ((q.st i).nux + (relRev (i == 0) (p.cd i) (p.idxs i) r).toNat) else 0) = _ ∧
        (if 0 ≤ relRev (i == 0) (p.cd i) (p.idxs i) r then
          ux i ((q.st i).nux + ((q.st i).ns + p.nns i) + (relRev (i == 0) (p.cd i) (p.idxs i) r).toNat) else 0) = _
      rw [h2]
      rcases h3 with h3 | ⟨k, hk, h3⟩
      · rw [h3]; simp
      · rw [h3, ← hvv]
        simp only [Int.natCast_nonneg, if_true, Int.toNat_natCast]
        refine ⟨(if_pos (by omega)).symm, ?_⟩
        rw [show dropAdded (q.st i).nux (q.st i).ns (p.nns i) (ux i) ((q.st i).nux + (q.st i).ns + k)
          = ux i ((q.st i).nux + (q.st i).ns + k + p.nns i) from if_neg (by omega)]
        congr 1; omega
  have added : ∀ c (hc : c < (p.idxns i).length),
      (p.idxns i)[c] < (q.st i).m ∧
      ((relaxQp useCon conH hs p q old).st i).sl (ux i) (p.idxns i)[c] = ux i ((q.st i).nux + (q.st i).ns + c) ∧
      ((relaxQp useCon conH hs p q old).st i).su (ux i) (p.idxns i)[c]
        = ux i ((q.st i).nux + 2 * (q.st i).ns + p.nns i + c) ∧
      (q.st i).sl v (p.idxns i)[c] = 0 ∧ (q.st i).su v (p.idxns i)[c] = 0 := by
    intro c hc
    have hmem := List.getElem_mem hc
    have hlt : (p.idxns i)[c] < (q.st i).m := by
      rw [hd.m i]; exact ((mem_idxns _ _ _ _).1 hmem).1
    have hrev : relRev (i == 0) (p.cd i) (p.idxs i) (p.idxns i)[c] = ((c + (p.cd i).ns : Nat) : Int) :=
      (relRev_char (hd.valid i) (i == 0)).2.1 c hc
    have hnom : (q.st i).idxs (p.idxns i)[c] = -1 := by
      rcases rows hd i _ hlt with ⟨-, h2, -⟩ | ⟨h1, -⟩
      · exact h2
      · exact absurd hmem h1
    have hns := hd.ns i
    refine ⟨hlt, ?_, ?_, ?_, ?_⟩
    · unfold Stage.sl
      show (if 0 ≤ relRev (i == 0) (p.cd i) (p.idxs i) (p.idxns i)[c] then
          ux i ((q.st i).nux + (relRev (i == 0) (p.cd i) (p.idxs i) (p.idxns i)[c]).toNat) else 0) = _
      rw [hrev, if_pos (Int.natCast_nonneg _), Int.toNat_natCast]; congr 1; omega
    · unfold Stage.su
      show (if 0 ≤ relRev (i == 0) (p.cd i) (p.idxs i) (p.idxns i)[c] then
          ux i ((q.st i).nux + ((q.st i).ns + p.nns i) +
            (relRev (i == 0) (p.cd i) (p.idxs i) (p.idxns i)[c]).toNat) else 0) = _
      rw [hrev, if_pos (Int.natCast_nonneg _), Int.toNat_natCast]; congr 1; omega
    · unfold Stage.sl; rw [hnom]; simp
    · unfold Stage.su; rw [hnom]; simp
  unfold violation l1Slacks
  rw [sum_add_distrib]
  refine add_le_add (key _ _ ?_ ?_) (key _ _ ?_ ?_)
  · intro r hr hn
    split
    · next hm =>
      have := hmL r hr hm
      unfold Stage.gapL at this ⊢
      rw [hlhs r hr, (keep r hr hn).1, hdL r hr] at this
      rw [max_eq_left_iff]; linarith
    · rfl
  · intro c hc
    obtain ⟨hlt, e1, -, e3, -⟩ := added c hc
    rw [cmax_eq_max]
    split
    · next hm =>
      have := hmL _ hlt hm
      unfold Stage.gapL at this ⊢
      rw [hlhs _ hlt, e1, hdL _ hlt] at this
      rw [e3]
      exact max_le_max le_rfl (by linarith)
    · exact le_max_left _ _
  · intro r hr hn
    split
    · next hm =>
      have := hmU r hr hm
      unfold Stage.gapU at this ⊢
      rw [hlhs r hr, (keep r hr hn).2, hdU r hr] at this
      rw [max_eq_left_iff]; linarith
    · rfl
  · intro c hc
    obtain ⟨hlt, -, e2, -, e4⟩ := added c hc
    rw [cmax_eq_max]
    split
    · next hm =>
      have := hmU _ hlt hm
      unfold Stage.gapU at this ⊢
      rw [hlhs _ hlt, e2, hdU _ hlt] at this
      rw [e4]
      exact max_le_max le_rfl (by linarith)
    · exact le_max_left _ _

end qp

/-! ## a concrete problem -/

/-- one control, no bounds, two contradicting general rows `1 ≤ u ≤ 10` and `-10 ≤ u ≤ -1` -/
def clashStage : Stage ℚ where
  nux := 1
  nb := 0
  ng := 2
  ns := 0
  H := fun _ _ => 1
  g := fun _ => 0
  Z := fun _ => 0
  BAbt := fun _ _ => 0
  b := fun _ => 0
  DCt := fun _ _ => 1
  d := fun r => if r = 0 then 1 else if r = 3 then 1 else if r < 4 then -10 else 0
  mask := fun _ => 1
  idxb := fun _ => 0
  idxs := fun _ => -1
def clash : Qp ℚ := ⟨0, fun _ => 0, fun _ => 1, fun _ => clashStage⟩
def clashSoft : Soft := ⟨fun _ => ⟨0, 0, 2, 0, 0, 0, 0, 0, 0⟩, fun _ _ => 0, fun _ _ => 0, fun _ _ => 0, fun _ _ => 0⟩
def zeroStage : Stage ℚ := { clashStage with d := fun _ => 0, g := fun _ => 0, H := fun _ _ => 0 }
def clashRel : Qp ℚ := relaxQp false (fun _ _ _ => 0) 1 clashSoft clash (fun _ => zeroStage)
/-- solution of the relaxed QP: no step, slack 1 on the lower side of the first and the upper side of the
second row -/
def clashSol : Nat → Nat → ℚ := fun _ j => if j = 1 then 1 else if j = 4 then 1 else 0

theorem clash_describes : Describes clashSoft clash where
  valid := fun _ => by constructor <;> simp [clashSoft]
  nb := fun _ => rfl
  ng := fun _ => rfl
  ns := fun _ => rfl
  idxs := fun _ => rfl

theorem clash_wf : WF clash where
  nux := fun _ => rfl
  idxb := fun _ j hj => absurd hj (by simp [clash, clashStage])
  idxs := fun _ _ _ => Or.inl rfl
  mask := fun _ _ => Or.inr rfl

/-- the hypotheses of `C21_relaxed_feasible` and `C21_nominal_feasible_partial` hold for the example, whose nominal
QP is infeasible -/
example : (¬ ∃ v, Feasible clash v) ∧ (∀ i, ∀ j < clashSoft.nns i,
      zeroStage.d (2 * (clash.st i).m + ((clash.st i).ns + j)) = 0 ∧
      zeroStage.d (2 * (clash.st i).m + (2 * (clash.st i).ns + clashSoft.nns i + j)) = 0) := by
  refine ⟨?_, fun _ _ _ => ⟨rfl, rfl⟩⟩
  rintro ⟨v, hv⟩
  have a := hv.low 0 (by simp [clash]) 0 (by simp [clash, clashStage, Stage.m]) (by simp [clash, clashStage])
  have b := hv.upp 0 (by simp [clash]) 1 (by simp [clash, clashStage, Stage.m]) (by simp [clash, clashStage])
  simp [clash, clashStage, Stage.gapL, Stage.gapU, Stage.lhs, Stage.sl, Stage.su, Stage.m] at a b
  linarith

example : ∃ ux, Feasible (scaleQpWith false false 1 clashRel ⟨clash, fun _ _ => 1, 1⟩).qp ux :=
  C21_relaxed_feasible clash_describes clash_wf (fun _ _ => Or.inr rfl) ⟨false, false, 1, 1⟩ 1 one_pos
    (fun _ => rfl) _ (fun _ r hr => absurd hr (by simp [clashSoft])) (fun r h1 h2 => absurd h2 (by simp [clashSoft]))
    (fun _ _ => 0) (fun _ _ r hr => absurd hr (by simp [clashSoft])) (fun _ => 0)
    (fun r _ h => absurd h (by simp [clashSoft]))

theorem clashRel_st : clashRel.N = 0 ∧ clashSoft.nns 0 = 2 ∧ (clash.st 0).nux = 1 ∧ (clash.st 0).ns = 0 ∧
    (clash.st 0).m = 2 ∧ (clashRel.st 0).nux = 1 ∧ (clashRel.st 0).ns = 2 ∧ (clashRel.st 0).m = 2 ∧
    (clashRel.st 0).idxs 0 = 0 ∧ (clashRel.st 0).idxs 1 = 1 := by decide

/-- **C21** (negation for a relaxation factor below one, which the option setter accepts): the point is the
minimiser of the relaxed QP, but the nominal QP after the bound update with factor `1/2` is infeasible. -/
theorem C21_small_factor_infeasible :
    IsMin clashRel clashSol ∧ ¬ ∃ v, Feasible (boQp (1 / 2) clashSoft clash clashRel clashSol) v := by
  have hfe : Feasible clashRel clashSol := by
    refine ⟨?_, ?_, ?_, ?_⟩
    · intro i hi; exact absurd hi (by rw [clashRel_st.1]; omega)
    · intro i hi r hr _
      have : i = 0 := by rw [clashRel_st.1] at hi; omega
      subst this
      change r < 2 at hr
      interval_cases r <;> decide +kernel
    · intro i hi r hr _
      have : i = 0 := by rw [clashRel_st.1] at hi; omega
      subst this
      change r < 2 at hr
      interval_cases r <;> decide +kernel
    · intro i hi k hk _
      have : i = 0 := by rw [clashRel_st.1] at hi; omega
      subst this
      have hk : k < 4 := hk
      interval_cases k <;> decide +kernel
  refine ⟨⟨hfe, ?_⟩, ?_⟩
  · intro w hw
    have hv : ∀ w, value clashRel w = 1 / 2 * w 0 0 ^ 2 + (w 0 1 + w 0 3 + (w 0 2 + w 0 4)) := by
      intro w
      unfold clashRel
      rw [C21_relaxed_objective]
      have e1 : clash.N + 1 = 1 := rfl
      have e2 : (clash.st 0).nux = 1 := rfl
      have e3 : (clash.st 0).ns = 0 := rfl
      have e4 : clashSoft.nns 0 = 2 := by decide
      simp only [e1, e2, e3, e4, sum_range_zero, sum_range_succ]
      ring
    rw [hv, hv]
    have a := hw.low 0 (by rw [clashRel_st.1]) 0 (by decide) (by decide +kernel)
    have b := hw.upp 0 (by rw [clashRel_st.1]) 1 (by decide) (by decide +kernel)
    have c := hw.slk 0 (by rw [clashRel_st.1]) 1 (by decide) (by decide +kernel)
    have d := hw.slk 0 (by rw [clashRel_st.1]) 2 (by decide) (by decide +kernel)
    have d1 : (clashRel.st 0).d 0 = 1 := by decide +kernel
    have d2 : (clashRel.st 0).d 3 = 1 := by decide +kernel
    have d3 : (clashRel.st 0).d 5 = 0 := by decide +kernel
    have d4 : (clashRel.st 0).d 6 = 0 := by decide +kernel
    obtain ⟨-, -, -, -, -, n1, n2, n3, n4, n5⟩ := clashRel_st
    have nb : (clashRel.st 0).nb = 0 := rfl
    have hD : ∀ r c, (clashRel.st 0).DCt r c = 1 := fun _ _ => rfl
    simp only [Stage.gapL, Stage.gapU, Stage.gapS, Stage.lhs, Stage.sl, Stage.su, n1, n2, n3, n4, n5, nb, hD,
      d1, d2, d3, d4, Nat.not_lt_zero, if_false, sum_range_one] at a b c d
    simp at a b
    simp only [clashSol]
    norm_num
    norm_num at c d
    nlinarith [sq_nonneg (w 0 0)]
  · rintro ⟨v, hv⟩
    have hN : (boQp (1 / 2) clashSoft clash clashRel clashSol).N = 0 := rfl
    have a := hv.low 0 (by rw [hN]) 0 (by decide) (by decide +kernel)
    have b := hv.upp 0 (by rw [hN]) 1 (by decide) (by decide +kernel)
    have d1 : ((boQp (1 / 2) clashSoft clash clashRel clashSol).st 0).d 0 = 1 / 2 := by decide +kernel
    have d2 : ((boQp (1 / 2) clashSoft clash clashRel clashSol).st 0).d 3 = 1 / 2 := by decide +kernel
    have n1 : ((boQp (1 / 2) clashSoft clash clashRel clashSol).st 0).nux = 1 := rfl
    have n2 : ((boQp (1 / 2) clashSoft clash clashRel clashSol).st 0).m = 2 := rfl
    have n3 : ∀ r, ((boQp (1 / 2) clashSoft clash clashRel clashSol).st 0).idxs r = -1 := fun _ => rfl
    have nb : ((boQp (1 / 2) clashSoft clash clashRel clashSol).st 0).nb = 0 := rfl
    have hD : ∀ r c, ((boQp (1 / 2) clashSoft clash clashRel clashSol).st 0).DCt r c = 1 := fun _ _ => rfl
    simp only [Stage.gapL, Stage.gapU, Stage.lhs, Stage.sl, Stage.su, n1, n2, n3, nb, hD,
      d1, d2, Nat.not_lt_zero, if_false, sum_range_one] at a b
    simp at a b
    linarith

/-- **C21** (predicted reduction of the infeasibility): what remains of the infeasibility `l1` of the current
iterate after the predicted reduction is nothing for a step of the nominal QP, everything if the iterate is
already feasible within both tolerances, and exactly the infeasibility of the QP solution otherwise. -/
theorem C21_predicted_reduction {K : Type*} [Field K] [LinearOrder K] (nominal : Bool) (l1 tolIneq tolEq qpInf : K) :
    l1 - predL1 nominal l1 tolIneq tolEq qpInf =
      if nominal = true then 0 else if l1 < tolIneq ∧ l1 < tolEq then l1 else qpInf := by
  unfold predL1
  cases nominal
  · simp only [Bool.false_eq_true, if_false]
    have : l1 < cmin tolIneq tolEq ↔ l1 < tolIneq ∧ l1 < tolEq := by
      unfold cmin; split
      · next h => exact ⟨fun a => ⟨a, a.trans h⟩, fun a => a.1⟩
      · next h => exact ⟨fun a => ⟨a.trans_le (not_lt.mp h), a⟩, fun a => a.2⟩
    simp only [this]
    split
    · exact sub_zero _
    · exact sub_sub_cancel _ _
  · simp

example : predL1 false (3 : Rat) (1/10) (1/10) 1 = 2 := by decide +kernel
end Acados.Wfqp
