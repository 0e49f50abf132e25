import Verif.Model.Penalty
import Verif.Lemmas.CostForm
import Mathlib.Tactic.Linarith
import Mathlib.Tactic.Positivity
/-! Helper lemmas for `Verif/Props/Penalty.lean` -/
namespace Acados.Penalty
open Finset Acados.CostForm
variable {K : Type} [Field K] [LinearOrder K]

theorem eval_congr {F : Type} (L : Lang K F) (v v' : Env K) (e : Ex K F) (h : ∀ s, e.occurs s → v s = v' s) :
    e.eval L v = e.eval L v' := by
  induction e with
  | const c => rfl
  | sym s => exact h s rfl
  | add a b iha ihb =>
    show a.eval L v + b.eval L v = _
    rw [iha fun s hs => h s (Or.inl hs), ihb fun s hs => h s (Or.inr hs)]; rfl
  | mul a b iha ihb =>
    show a.eval L v * b.eval L v = _
    rw [iha fun s hs => h s (Or.inl hs), ihb fun s hs => h s (Or.inr hs)]; rfl
  | fn f a b iha ihb =>
    show L.I f (a.eval L v) (b.eval L v) = _
    rw [iha fun s hs => h s (Or.inl hs), ihb fun s hs => h s (Or.inr hs)]; rfl

theorem push_lt {α : Type} (v : Vec α) (e : α) (i : Nat) (h : i < v.len) : (Vec.push v e).e i = v.e i := by
  show (if i = v.len then e else v.e i) = _
  rw [if_neg (by omega)]

theorem push_last {α : Type} (v : Vec α) (e : α) : (Vec.push v e).e v.len = e := by
  show (if v.len = v.len then e else v.e v.len) = _
  rw [if_pos rfl]

theorem wls_push (n : Nat) (W W' : Nat → Nat → K) (r r' : Nat → K) (w d : K)
    (hW : ∀ i < n, ∀ j < n, W' i j = W i j) (h0 : ∀ i < n, W' i n = 0) (h1 : ∀ j < n, W' n j = 0) (hw : W' n n = w)
    (hr : ∀ i < n, r' i = r i) (hd : r' n = d) :
    wls (n + 1) W' r' = wls n W r + 1 / 2 * w * (d * d) := by
  unfold wls
  rw [sum_range_succ, sum_range_succ]
  have a : ∑ i ∈ range n, ∑ j ∈ range (n + 1), r' i * W' i j * r' j = ∑ i ∈ range n, ∑ j ∈ range n, r i * W i j * r j := by
    refine sum_congr rfl fun i hi => ?_
    have hi' := mem_range.1 hi
    rw [sum_range_succ, h0 i hi', mul_zero, zero_mul, add_zero]
    refine sum_congr rfl fun j hj => ?_
    rw [hr i hi', hr j (mem_range.1 hj), hW i hi' j (mem_range.1 hj)]
  have b : ∑ j ∈ range n, r' n * W' n j * r' j = 0 :=
    sum_eq_zero fun j hj => by rw [h1 j (mem_range.1 hj), mul_zero, zero_mul]
  rw [a, b, hw, hd]
  ring

/-- the cost with one more squared residual -/
theorem addL2_value (L : Lang K (Fn K)) (viol : E K) (w : K) (c : SC K (Fn K)) (hs : Shaped c) (ht : TakesL2 c) :
    ∃ c', addL2 viol w c = .ok c' ∧ Shaped c' ∧ TakesL2 c' ∧ c'.kind = c.kind ∧
      ∀ (nx nu nz : Nat) (v : Env K), value L nx nu nz c' v
        = some ((value L nx nu nz c v).getD 0 + 1 / 2 * w * (viol.eval L v * viol.eval L v)) := by
  rcases ht with hk | hk | hk
  · obtain ⟨a, b, d⟩ := hs.1 hk
    refine ⟨{ c with yref := Vec.push c.yref (.const 0), y := Vec.push c.y viol, W := blockDiag c.W (.const w) }, ?_, ?_,
      Or.inl hk, rfl, fun nx nu nz v => ?_⟩
    · unfold addL2; dsimp only; rw [hk]
    · refine ⟨fun _ => ⟨?_, ?_, ?_⟩, fun x => ?_⟩
      · show c.y.len + 1 = c.W.rows + 1; rw [a]
      · show c.yref.len + 1 = c.W.rows + 1; rw [b]
      · show c.W.cols + 1 = c.W.rows + 1; rw [d]
      · change c.kind = _ at x; rw [hk] at x; cases x
    · unfold value
      dsimp only
      rw [hk]
      dsimp only
      rw [Option.getD_some]
      congr 1
      refine wls_push c.W.rows _ _ _ _ w (viol.eval L v) (fun i hi j hj => ?_) (fun i hi => ?_) (fun j hj => ?_) ?_ (fun i hi => ?_) ?_
      · show ((blockDiag c.W (.const w)).e i j).eval L v = _
        unfold blockDiag
        dsimp only
        rw [if_neg (by omega), if_pos ⟨hi, by omega⟩]
      · show ((blockDiag c.W (.const w)).e i c.W.rows).eval L v = _
        unfold blockDiag
        dsimp only
        rw [if_neg (by omega), if_neg (by omega)]; rfl
      · show ((blockDiag c.W (.const w)).e c.W.rows j).eval L v = _
        unfold blockDiag
        dsimp only
        rw [if_neg (by omega), if_neg (by omega)]; rfl
      · show ((blockDiag c.W (.const w)).e c.W.rows c.W.rows).eval L v = _
        unfold blockDiag
        dsimp only
        rw [if_pos ⟨rfl, d.symm⟩]; rfl
      · rw [push_lt _ _ _ (by omega), push_lt _ _ _ (by omega)]
      · rw [← a, push_last, a, ← b, push_last]
        show viol.eval L v - 0 = _
        rw [sub_zero]
  · obtain ⟨a, b, d⟩ := hs.2 hk
    have key : ∀ v : Env K, ∀ ψ, (∀ i ≥ c.nr, ¬ Ex.occurs (.r i) ψ) →
        ψ.eval L (v.withR fun i => ((Vec.push c.y viol).e i).eval L v - ((Vec.push c.yref (.const 0)).e i).eval L v)
          = ψ.eval L (v.withR fun i => (c.y.e i).eval L v - (c.yref.e i).eval L v) := by
      intro v ψ hψ
      refine eval_congr L _ _ ψ fun s hs => ?_
      cases s with
      | r i =>
        have hi : i < c.nr := by by_contra hn; exact hψ i (by omega) hs
        show (_ : K) = _
        simp only [Env.withR]
        rw [push_lt _ _ _ (by omega), push_lt _ _ _ (by omega)]
      | x i => rfl
      | u i => rfl
      | z i => rfl
      | p i => rfl
    have last : ∀ v : Env K, ((Vec.push c.y viol).e c.nr).eval L v - ((Vec.push c.yref (.const 0)).e c.nr).eval L v
        = viol.eval L v := by
      intro v
      rw [← a, push_last, a, ← b, push_last]
      show viol.eval L v - 0 = _
      rw [sub_zero]
    refine ⟨{ c with
        yref := Vec.push c.yref (.const 0), y := Vec.push c.y viol, nr := c.nr + 1
        psi := some (match c.psi with
          | some ψ => .add ψ (.mul (.const (1 / 2 * w)) (.mul (.sym (.r c.nr)) (.sym (.r c.nr))))
          | none => .mul (.const (1 / 2 * w)) (.mul (.sym (.r c.nr)) (.sym (.r c.nr)))) }, ?_, ?_,
      Or.inr (Or.inl hk), rfl, fun nx nu nz v => ?_⟩
    · unfold addL2; dsimp only; rw [hk]; rfl
    · refine ⟨fun x => ?_, fun _ => ⟨?_, ?_, ?_⟩⟩
      · change c.kind = _ at x; rw [hk] at x; cases x
      · show c.y.len + 1 = c.nr + 1; rw [a]
      · show c.yref.len + 1 = c.nr + 1; rw [b]
      · intro ψ hψ i hi
        change i ≥ c.nr + 1 at hi
        have hn : ∀ j : Nat, c.nr + 1 ≤ j → ¬ (Ex.occurs (.r j)
            (.mul (.const (1 / 2 * w)) (.mul (.sym (.r c.nr)) (.sym (.r c.nr))) : E K)) := by
          rintro j hj (x | x | x)
          · exact x
          · have : Sym.r c.nr = .r j := x; cases this; omega
          · have : Sym.r c.nr = .r j := x; cases this; omega
        rcases hp : c.psi with _ | ψ₀
        · rw [hp] at hψ; cases hψ; exact hn i hi
        · rw [hp] at hψ; cases hψ
          rintro (x | x)
          · exact d ψ₀ hp i (by omega) x
          · exact hn i hi x
    · have hnew : (Ex.mul (.const (1 / 2 * w)) (.mul (.sym (.r c.nr)) (.sym (.r c.nr))) : E K).eval L
          (v.withR fun i => ((Vec.push c.y viol).e i).eval L v - ((Vec.push c.yref (.const 0)).e i).eval L v)
          = 1 / 2 * w * (viol.eval L v * viol.eval L v) := by
        show 1 / 2 * w * ((((Vec.push c.y viol).e c.nr).eval L v - ((Vec.push c.yref (.const 0)).e c.nr).eval L v)
          * (((Vec.push c.y viol).e c.nr).eval L v - ((Vec.push c.yref (.const 0)).e c.nr).eval L v)) = _
        rw [last]
      unfold value
      dsimp only
      rw [hk]
      dsimp only
      rcases hp : c.psi with _ | ψ₀
      · simp only [Option.map_some, Option.map_none, Option.getD_none]
        rw [hnew, zero_add]
      · simp only [Option.map_some, Option.getD_some]
        congr 1
        show ψ₀.eval L _ + _ = _
        rw [hnew, key v ψ₀ (d ψ₀ hp)]
  · refine ⟨{ c with
        yref := Vec.push c.yref (.const 0), y := Vec.push c.y viol
        ext := some (match c.ext with
          | some e => .add e (.mul (.const (1 / 2 * w)) (.mul viol viol))
          | none => .mul (.const (1 / 2 * w)) (.mul viol viol)) }, ?_, ?_,
      Or.inr (Or.inr hk), rfl, fun nx nu nz v => ?_⟩
    · unfold addL2; dsimp only; rw [hk]; rfl
    · exact ⟨fun x => (by change c.kind = _ at x; rw [hk] at x; cases x), fun x => (by change c.kind = _ at x; rw [hk] at x; cases x)⟩
    · unfold value
      dsimp only
      rw [hk]
      dsimp only
      rcases hp : c.ext with _ | e
      · simp only [Option.map_some, Option.map_none, Option.getD_none]
        rw [zero_add]; rfl
      · simp only [Option.map_some, Option.getD_some]
        rfl

theorem penaliseAll_value [IsStrictOrderedRing K] (L : Lang K (Fn K)) (ks : List (Con K)) (hk : ∀ k ∈ ks, exLt k.ub k.lb = false) :
    ∀ c : SC K (Fn K), Shaped c → TakesL2 c →
    ∃ c', penaliseAll ks c = .ok c' ∧ c'.kind = c.kind ∧ (ks = [] → c' = c) ∧
      ∀ (nx nu nz : Nat) (v : Env K), (value L nx nu nz c' v).getD 0
        = (value L nx nu nz c v).getD 0 + (ks.map fun k => 1 / 2 * ((violE k.e (some k.ub) (some k.lb)).eval L v) ^ 2).sum := by
  induction ks with
  | nil => exact fun c _ _ => ⟨c, rfl, rfl, fun _ => rfl, fun _ _ _ _ => by rw [List.map_nil, List.sum_nil, add_zero]⟩
  | cons k ks ih =>
    intro c hs ht
    obtain ⟨c1, e1, s1, t1, k1, v1⟩ := addL2_value L (violE k.e (some k.ub) (some k.lb)) 1 c hs ht
    obtain ⟨c2, e2, k2, -, v2⟩ := ih (fun x hx => hk x (List.mem_cons_of_mem _ hx)) c1 s1 t1
    refine ⟨c2, ?_, k2.trans k1, fun x => (by cases x), fun nx nu nz v => ?_⟩
    · unfold penaliseAll formulateL2
      dsimp only
      rw [hk k (List.mem_cons_self ..), if_neg (by decide), e1]
      exact e2
    · rw [v2, v1, Option.getD_some, List.map_cons, List.sum_cons]
      ring

end Acados.Penalty
