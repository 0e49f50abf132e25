import Mathlib.Data.Int.Basic
import Mathlib.Algebra.BigOperators.Group.Finset.Basic
/-!
# Partial condensing: block sizes

Options and dimensions of `ocp_qp_partial_condensing.c`.  The condensing itself is HPIPM (external).
-/
namespace Acados.Pcond

/-- `d_part_cond_qp_compute_block_size` (HPIPM, external, not part of /repo; called at
ocp_qp_partial_condensing.c:176 and 360): the first `N - N2 * (N / N2)` blocks have one stage more than the
others, the last block is empty.  Division by zero for `N2 = 0` is not modelled (value unspecified there). -/
def hpipmBlock (N N2 : Nat) (i : Nat) : Int :=
  if i < N - N2 * (N / N2) then (N / N2 : Nat) + 1 else if i < N2 then (N / N2 : Nat) else 0

/-- options and dimensions: `N` the horizon, `n2`/`n2bkp` the options `N2`, `N2_bkp`, `blk` the user's block
sizes (`opts->block_size`, `N+1` entries), `was` the flag `block_size_was_set`, `use` the block sizes handed to
HPIPM (`dims->block_size`, `N+1` entries), `pN` the field `pcond_dims->N`; `memN` (ghost) the value of `N2`
the memory was created for, `maxIdx` (ghost) one more than the largest index written to a block size array -/
structure St where
  N : Nat
  n2 : Int
  n2bkp : Int
  blk : Nat → Int
  was : Bool
  use : Nat → Int
  pN : Int
  memN : Option Int
  maxIdx : Nat

/-- number of iterations of `for (int i = 0; i < N2+1; i++)`, ocp_qp_partial_condensing.c:308, 342, 348 -/
def cnt (n2 : Int) : Nat := (n2 + 1).toNat

/-- copy loop over the first `n` entries, ocp_qp_partial_condensing.c:308-311, 342-345 -/
def copyTo (n : Nat) (src dst : Nat → Int) : Nat → Int :=
  (List.range n).foldl (fun a i => Function.update a i (src i)) dst

/-- accumulation loop `tmp_sum += block_size[i]`, ocp_qp_partial_condensing.c:347-351 -/
def total (n : Nat) (b : Nat → Int) : Int := (List.range n).foldl (fun s i => s + b i) 0

/-- the entry points `opts_set` (ocp_qp_partial_condensing.c:286-322, one constructor per field), `opts_update`
(269-282), `memory_calculate_size` (330-403) and the condensing functions (523-713) -/
inductive Op where
  | setN (v : Int)
  | setNbkp (v : Int)
  | setBlock (v : Nat → Int)
  | update
  | create
  | solve

/-- after `opts_calculate_size`, `opts_assign` and `opts_initialize_default`,
ocp_qp_partial_condensing.c:163-265; `blk0`: content of the new memory -/
def init (N : Nat) (blk0 : Nat → Int) : St :=
  { N := N, n2 := N, n2bkp := N, blk := blk0, was := false, use := hpipmBlock N N, pN := N, memN := none
    maxIdx := N + 1 }

/-- one operation; `none` is `exit(1)` or a failed assertion -/
def step (s : St) : Op → Option St
  -- `opts_set`, ocp_qp_partial_condensing.c:286-322; the `ric_alg` field is passed on to HPIPM and not modelled
  | .setN v => some { s with n2 := v }
  | .setNbkp v => some { s with n2bkp := v }
  | .setBlock v => some { s with blk := copyTo (cnt s.n2) v s.blk, was := true
                                 maxIdx := max s.maxIdx (cnt s.n2) }
  -- `opts_update`, ocp_qp_partial_condensing.c:269-282
  | .update => some { s with pN := s.n2, n2bkp := s.n2 }
  -- `memory_calculate_size`, ocp_qp_partial_condensing.c:330-372 (`red_dims->N` is `orig_dims->N`: eliminating equality
  -- constrained variables keeps the horizon; `int` overflow of the sum is not modelled)
  | .create =>
    if s.was then
      let use := copyTo (cnt s.n2) s.blk s.use
      if total (cnt s.n2) use ≠ s.N then none
      else some { s with pN := s.n2, use := use, memN := some s.n2, maxIdx := max s.maxIdx (cnt s.n2) }
    else some { s with pN := s.n2, use := hpipmBlock s.N s.n2.toNat, memN := some s.n2
                       maxIdx := max s.maxIdx (cnt s.n2) }
  -- `ocp_qp_partial_condensing` and its variants, ocp_qp_partial_condensing.c:532, 584, 609, 640, 671, 698: the
  -- assertion only
  | .solve => if s.n2 = s.n2bkp then some s else none

/-- a sequence of calls by the user of the module; stops at the first `exit(1)` -/
def runOps (s : St) : List Op → Option St
  | [] => some s
  | o :: os => (step s o).bind fun s' => runOps s' os

end Acados.Pcond
