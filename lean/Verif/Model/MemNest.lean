import Verif.Model.Mem
/-!
# Objects inside objects

A solver object is one buffer.  Its assign function carves the buffer into blocks and hands some of them
to the assign functions of other modules (`c_ptr += X_calculate_size(...)` after
`X_assign(..., c_ptr)`), which carve them further.  `Layout` is that tree.
-/
namespace Acados.Mem

/-- what happens with one block: it is an array of its own, or the buffer of the assign function `ops`
whose `calculate_size` returned `size` and whose `i`-th block is used as `sub i` says.  This is the shape
of all nested assign calls, e.g. `ocp_nlp_memory_assign` inside `ocp_nlp_sqp_memory_assign`
(acados/ocp_nlp/ocp_nlp_sqp.c:250-253) and `ocp_qp_in_assign` inside `ocp_nlp_memory_assign`
(acados/ocp_nlp/ocp_nlp_common.c:1913-1915). -/
inductive Layout where
  | array
  | object (ops : List Op) (size : Nat) (sub : Nat → Layout)

/-- run `f k`, `f (k+1)`, ... on consecutive blocks and concatenate what they hand out; `none` if one of
them fails an assertion (statement sequence of an assign function). -/
def collect (f : Nat → Region → Option (List Region)) : Nat → List Region → Option (List Region)
  | _, [] => some []
  | k, r :: rs =>
    match f k r, collect f (k + 1) rs with
    | some a, some b => some (a ++ b)
    | _, _ => none

/-- the arrays handed out by an assign function and all nested assign calls, started on the block `r`. -/
def arrays : Layout → Region → Option (List Region)
  | .array, r => some [r]
  | .object ops _ sub, r =>
    match run ops r.start with
    | none => none
    | some (rs, _) => collect (fun i s => arrays (sub i) s) 0 rs

end Acados.Mem
