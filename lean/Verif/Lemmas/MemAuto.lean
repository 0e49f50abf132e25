import Mathlib.Algebra.BigOperators.Group.Finset.Basic
import Mathlib.Algebra.BigOperators.Intervals
import Mathlib.Algebra.BigOperators.Ring.Finset
import Mathlib.Tactic.Linarith
import Verif.Model.MemLoop
import Verif.Props.Mem
/-! Step lemmas and two small tactics for discharging C02 instances. -/
namespace Acados.Mem
open Finset

theorem AlOK.mono {m m' : Nat} (hd : m ∣ m') : ∀ {ops : List Op}, AlOK m ops → AlOK m' ops := by
  intro ops
  induction ops generalizing m m' with
  | nil => exact fun _ => trivial
  | cons o t ih =>
    cases o with
    | align a => exact fun h => h
    | alloc nat b s =>
      exact fun h => ⟨Nat.dvd_trans h.1 hd,
        ih (Nat.gcd_dvd_gcd_of_dvd_left s hd) h.2⟩

theorem al_nil (m : Nat) : AlOK m [] := trivial
theorem al_align {m a : Nat} {t : List Op} (ha : 0 < a) (h : AlOK a t) :
    AlOK m (.align a :: t) := ⟨ha, h⟩
theorem al_alloc {m k nat s : Nat} {b : Bool} {t : List Op} (hk : k ∣ m) (hn : nat ∣ k)
    (hs : k ∣ s) (h : AlOK k t) : AlOK m (.alloc nat b s :: t) :=
  ⟨Nat.dvd_trans hn hk, h.mono (Nat.dvd_gcd hk hs)⟩

theorem al_struct {m s : Nat} {t : List Op} (hm : 8 ∣ m) (hs : 8 ∣ s) (h : AlOK 8 t) :
    AlOK m (.struct s :: t) := al_alloc hm (by decide) hs h
/-- a struct as the last region needs no statement about its size -/
theorem al_struct_last {m s : Nat} (hm : 8 ∣ m) : AlOK m [.struct s] := ⟨hm, trivial⟩
theorem al_raw {m s : Nat} {t : List Op} (hs : m ∣ s) (h : AlOK m t) :
    AlOK m (.raw s :: t) := al_alloc (Nat.dvd_refl m) (Nat.one_dvd _) hs h
theorem al_ptrs {m w n : Nat} {t : List Op} (hm : 8 ∣ m) (hw : 8 ∣ w) (h : AlOK 8 t) :
    AlOK m (.ptrs w n :: t) := al_alloc hm (by decide) (Dvd.dvd.mul_right hw n) h
theorem al_ints {m n : Nat} {t : List Op} (hm : 4 ∣ m) (h : AlOK 4 t) :
    AlOK m (.ints n :: t) := al_alloc hm (by decide) (Nat.dvd_mul_right 4 n) h
theorem al_bools {m n : Nat} {t : List Op} (h : AlOK 1 t) :
    AlOK m (.bools n :: t) := al_alloc (Nat.one_dvd m) (by decide) (Nat.one_dvd n) h
theorem al_doubles {m n : Nat} {t : List Op} (hm : 8 ∣ m) (h : AlOK 8 t) :
    AlOK m (.doubles n :: t) := al_alloc hm (by decide) (Nat.dvd_mul_right 8 n) h
theorem al_rawDoubles {m n : Nat} {t : List Op} (hm : 8 ∣ m) (h : AlOK 8 t) :
    AlOK m (.rawDoubles n :: t) := al_alloc hm (by decide) (Nat.dvd_mul_right 8 n) h
theorem al_dvec {m n : Nat} {B : Blasfeo} {t : List Op} (hm : 8 ∣ m) (h : AlOK 8 t) :
    AlOK m (.dvec B n :: t) := al_alloc hm (by decide) (B.dvec8 n) h
theorem al_dmat {m k n : Nat} {B : Blasfeo} {t : List Op} (hm : 64 ∣ m) (h : AlOK 64 t) :
    AlOK m (.dmat B k n :: t) := al_alloc hm (by decide) (B.dmat64 k n) h

theorem loop_succ (n : Nat) (f : Nat → List Op) : loop (n + 1) f = loop n f ++ f n := by
  simp [loop, List.range_succ]

theorem al_loop {k : Nat} (f : Nat → List Op)
    (hf : ∀ i t, AlOK k t → AlOK k (f i ++ t)) (n : Nat) : ∀ t, AlOK k t →
    AlOK k (loop n f ++ t) := by
  induction n with
  | zero => intro t h; simpa [loop] using h
  | succ n ih =>
    intro t h
    rw [loop_succ, List.append_assoc]
    exact ih _ (hf n t h)

theorem al_loop_dvec {m n : Nat} {B : Blasfeo} {g : Nat → Nat} {t : List Op} (hm : 8 ∣ m)
    (h : AlOK 8 t) : AlOK m (loop n (fun i => [.dvec B (g i)]) ++ t) :=
  AlOK.mono hm (al_loop _ (fun _ _ ht => al_dvec (Nat.dvd_refl 8) ht) n t h)
theorem al_loop_dmat {m n : Nat} {B : Blasfeo} {g k : Nat → Nat} {t : List Op} (hm : 64 ∣ m)
    (h : AlOK 64 t) : AlOK m (loop n (fun i => [.dmat B (g i) (k i)]) ++ t) :=
  AlOK.mono hm (al_loop _ (fun _ _ ht => al_dmat (Nat.dvd_refl 64) ht) n t h)
theorem al_loop_dmat2 {m n : Nat} {B : Blasfeo} {g k g' k' : Nat → Nat} {t : List Op}
    (hm : 64 ∣ m) (h : AlOK 64 t) :
    AlOK m (loop n (fun i => [.dmat B (g i) (k i), .dmat B (g' i) (k' i)]) ++ t) :=
  AlOK.mono hm (al_loop _ (fun _ _ ht => al_dmat (Nat.dvd_refl 64)
    (al_dmat (Nat.dvd_refl 64) ht)) n t h)
theorem al_loop_dmat4 {m n : Nat} {B : Blasfeo} {a a' b b' c c' e e' : Nat → Nat} {t : List Op}
    (hm : 64 ∣ m) (h : AlOK 64 t) :
    AlOK m (loop n (fun i => [.dmat B (a i) (a' i), .dmat B (b i) (b' i), .dmat B (c i) (c' i),
      .dmat B (e i) (e' i)]) ++ t) :=
  AlOK.mono hm (al_loop _ (fun _ _ ht => al_dmat (Nat.dvd_refl 64)
    (al_dmat (Nat.dvd_refl 64) (al_dmat (Nat.dvd_refl 64) (al_dmat (Nat.dvd_refl 64) ht)))) n t h)
theorem al_loop_dvec2 {m n : Nat} {B : Blasfeo} {g g' : Nat → Nat} {t : List Op} (hm : 8 ∣ m)
    (h : AlOK 8 t) : AlOK m (loop n (fun i => [.dvec B (g i), .dvec B (g' i)]) ++ t) :=
  AlOK.mono hm (al_loop _ (fun _ _ ht => al_dvec (Nat.dvd_refl 8) (al_dvec (Nat.dvd_refl 8) ht)) n t h)
theorem al_loop_iteDoubles {m n : Nat} {P : Nat → Prop} [DecidablePred P] {g : Nat → Nat}
    {t : List Op} (hm : 8 ∣ m) (h : AlOK 8 t) :
    AlOK m (loop n (fun i => if P i then [.doubles (g i)] else []) ++ t) :=
  AlOK.mono hm (al_loop _ (fun i t ht => by
    by_cases hp : P i
    · simp only [hp, if_true, List.cons_append, List.nil_append]
      exact al_doubles (Nat.dvd_refl 8) ht
    · simpa only [hp, if_false, List.nil_append] using ht) n t h)
theorem al_loop_doubles {m n : Nat} {g : Nat → Nat} {t : List Op} (hm : 8 ∣ m)
    (h : AlOK 8 t) : AlOK m (loop n (fun i => [.doubles (g i)]) ++ t) :=
  AlOK.mono hm (al_loop _ (fun _ _ ht => al_doubles (Nat.dvd_refl 8) ht) n t h)
theorem al_loop_rawDoubles {m n : Nat} {g : Nat → Nat} {t : List Op} (hm : 8 ∣ m)
    (h : AlOK 8 t) : AlOK m (loop n (fun i => [.rawDoubles (g i)]) ++ t) :=
  AlOK.mono hm (al_loop _ (fun _ _ ht => al_rawDoubles (Nat.dvd_refl 8) ht) n t h)
theorem al_loop_ints {m n : Nat} {g : Nat → Nat} {t : List Op} (hm : 4 ∣ m)
    (h : AlOK 4 t) : AlOK m (loop n (fun i => [.ints (g i)]) ++ t) :=
  AlOK.mono hm (al_loop _ (fun _ _ ht => al_ints (Nat.dvd_refl 4) ht) n t h)
theorem al_loop_struct {m n : Nat} {g : Nat → Nat} {t : List Op} (hm : 8 ∣ m)
    (hg : ∀ i, 8 ∣ g i) (h : AlOK 8 t) : AlOK m (loop n (fun i => [.struct (g i)]) ++ t) :=
  AlOK.mono hm (al_loop _ (fun i _ ht => al_struct (Nat.dvd_refl 8) (hg i) ht) n t h)

theorem need_nil : need [] = 0 := rfl
theorem need_align (a : Nat) (t : List Op) : need (.align a :: t) = (a - 1) + need t := rfl
theorem need_struct (s : Nat) (t : List Op) : need (.struct s :: t) = s + need t := rfl
theorem need_raw (s : Nat) (t : List Op) : need (.raw s :: t) = s + need t := rfl
theorem need_ptrs (w n : Nat) (t : List Op) : need (.ptrs w n :: t) = w * n + need t := rfl
theorem need_ints (n : Nat) (t : List Op) : need (.ints n :: t) = 4 * n + need t := rfl
theorem need_bools (n : Nat) (t : List Op) : need (.bools n :: t) = n + need t := rfl
theorem need_doubles (n : Nat) (t : List Op) : need (.doubles n :: t) = 8 * n + need t := rfl
theorem need_rawDoubles (n : Nat) (t : List Op) :
    need (.rawDoubles n :: t) = 8 * n + need t := rfl
theorem need_dvec (B : Blasfeo) (n : Nat) (t : List Op) :
    need (.dvec B n :: t) = B.dvec n + need t := rfl
theorem need_dmat (B : Blasfeo) (m n : Nat) (t : List Op) :
    need (.dmat B m n :: t) = B.dmat m n + need t := rfl
theorem need_loop (n : Nat) (f : Nat → List Op) :
    need (loop n f) = ∑ i ∈ range n, need (f i) := by
  induction n with
  | zero => simp [loop, need]
  | succ n ih => rw [loop_succ, need_append, sum_range_succ, ih]

theorem dvd_makeIntMultipleOf (n : Nat) : 8 ∣ makeIntMultipleOf 8 n := by
  unfold makeIntMultipleOf
  rw [if_pos (by decide)]
  exact Nat.dvd_mul_left 8 _

theorem sum_const_range (n c : Nat) : ∑ _i ∈ range n, c = n * c := by
  induction n with
  | zero => simp
  | succ n ih => rw [sum_range_succ, ih, Nat.succ_mul]

theorem need_ite (P : Prop) [Decidable P] (a b : List Op) :
    need (if P then a else b) = if P then need a else need b := by
  split <;> rfl

theorem ite_mul8 (P : Prop) [Decidable P] (a : Nat) :
    (if P then 8 * a else 0) = 8 * (if P then a else 0) := by
  split <;> rfl

theorem al_loop_end {m n : Nat} {f : Nat → List Op} (h : AlOK m (loop n f ++ [])) :
    AlOK m (loop n f) := by rwa [List.append_nil] at h

/-- a conditional block in the middle of an assign function -/
theorem al_ite {m k : Nat} {c : Bool} {a b t : List Op}
    (ha : ∀ t, AlOK k t → AlOK m (a ++ t)) (hb : ∀ t, AlOK k t → AlOK m (b ++ t)) (h : AlOK k t) :
    AlOK m ((if c then a else b) ++ t) := by
  cases c
  · exact hb t h
  · exact ha t h

/-- a conditional as a polynomial in indicators -/
theorem ite_ind (c : Bool) (a b : Nat) :
    (if c then a else b) = c.toNat * a + (!c).toNat * b := by
  cases c <;> simp

/-- split appended op lists into a right-nested list of single steps -/
macro "mem_norm" : tactic => `(tactic|
  try simp only [List.cons_append, List.nil_append, List.append_assoc, List.append_nil,
    if_true, if_false, Bool.false_eq_true])

/-- alignment side goals: `8 ∣ 64`, hypotheses, sizes rounded up -/
macro "mem_dvd" : tactic => `(tactic|
  first
    | decide
    | assumption
    | exact dvd_makeIntMultipleOf _
    | (intro i; first | apply_assumption | exact dvd_makeIntMultipleOf _)
    | omega)

/-- one step of the alignment analysis -/
macro "mem_step" : tactic => `(tactic|
  first
    | exact al_nil _
    | (refine al_align (by decide) ?_)
    | (refine al_doubles (by decide) ?_)
    | (refine al_rawDoubles (by decide) ?_)
    | (refine al_dmat (by decide) ?_)
    | (refine al_dvec (by decide) ?_)
    | (refine al_ints (by decide) ?_)
    | (refine al_bools ?_)
    | (refine al_ptrs (by decide) (by mem_dvd) ?_)
    | (refine al_struct (by decide) (by mem_dvd) ?_)
    | exact al_struct_last (by decide)
    | (refine al_loop_dmat4 (by decide) ?_)
    | (refine al_loop_dmat2 (by decide) ?_)
    | (refine al_loop_dvec2 (by decide) ?_)
    | (refine al_loop_iteDoubles (by decide) ?_)
    | (refine al_loop_dmat (by decide) ?_)
    | (refine al_loop_dvec (by decide) ?_)
    | (refine al_loop_doubles (by decide) ?_)
    | (refine al_loop_rawDoubles (by decide) ?_)
    | (refine al_loop_ints (by decide) ?_)
    | (refine al_loop_struct (by decide) (by mem_dvd) ?_)
    | (refine al_loop_end ?_))

/-- `AlOK 8 ops` -/
macro "mem_al" : tactic => `(tactic| (mem_norm; repeat mem_step))

/-- `need ops ≤ size` -/
macro "mem_need" : tactic => `(tactic|
  (first
     | with_reducible refine Nat.le_trans ?_ (le_makeIntMultipleOf _ _)
     | with_reducible refine Nat.le_trans ?_ (Nat.add_le_add_right (le_makeIntMultipleOf _ _) _)
     | skip
   simp only [need_append, need_nil, need_align, need_struct, need_raw, need_ptrs, need_ints,
     need_bools, need_doubles, need_rawDoubles, need_dvec, need_dmat, need_loop,
     sum_add_distrib, sum_range_succ, sum_const_range, need_ite, ite_mul8, ← mul_sum, Nat.add_zero, Nat.zero_add, List.cons_append,
     List.nil_append, List.append_nil, if_true, if_false, Bool.false_eq_true,
     Nat.reduceSub, Nat.reduceMul, Nat.reduceAdd, Nat.mul_add, Nat.add_mul, Nat.mul_one,
     Nat.one_mul]
   first | linarith | omega))

end Acados.Mem
