import Verif.Spec.Flat
import Mathlib.Logic.Function.Basic
import Mathlib.Algebra.Ring.Defs
import Mathlib.Data.Int.Init
/-!
# Flat and stage-wise access to an iterate (`interfaces/acados_c/ocp_nlp_interface.c`)

`blasfeo_pack_dvec(n, src, 1, vec, off)` and `blasfeo_unpack_dvec` are loops over `n` numbers.
-/
namespace Acados.Flat
variable {K : Type}

/-- `blasfeo_pack_dvec(n, values + voff, 1, vec, off)` -/
def pack (n : Nat) (values : Nat → K) (voff : Nat) (fam : Fam) (k off : Nat) (o : Adr → K) : Adr → K :=
  (List.range n).foldl (fun o i => Function.update o (fam, k, off + i) (values (voff + i))) o

/-- `blasfeo_unpack_dvec(n, vec, off, values + voff, 1)` -/
def unpack (n : Nat) (o : Adr → K) (fam : Fam) (k off : Nat) (values : Nat → K) (voff : Nat) : Nat → K :=
  (List.range n).foldl (fun v i => Function.update v (voff + i) (o (fam, k, off + i))) values

/-- `blasfeo_dvecmul(n, mask, 0, lam, 0, lam, 0)` -/
def mulMask [Mul K] (n : Nat) (mask : Nat → Nat → K) (k : Nat) (o : Adr → K) : Adr → K :=
  (List.range n).foldl (fun o i => Function.update o (.lam, k, i) (mask k i * o (.lam, k, i))) o

/-- loop body of `ocp_nlp_set_all`, lines 2024-2100, for one stage -/
def setAllStage [Mul K] (d : Dims) (mask : Nat → Nat → K) (f : Field) (values : Nat → K) (s : Nat × (Adr → K)) (k : Nat) :
    Nat × (Adr → K) :=
  match f with
  | .x => (s.1 + d.nx k, pack (d.nx k) values s.1 .ux k (d.nu k) s.2)
  | .u => (s.1 + d.nu k, pack (d.nu k) values s.1 .ux k 0 s.2)
  | .sl => (s.1 + d.ns k, pack (d.ns k) values s.1 .ux k (d.nx k + d.nu k) s.2)
  | .su => (s.1 + d.ns k, pack (d.ns k) values s.1 .ux k (d.nx k + d.nu k + d.ns k) s.2)
  | .s => (s.1 + 2 * d.ns k, pack (2 * d.ns k) values s.1 .ux k (d.nx k + d.nu k) s.2)
  | .z => (s.1 + d.nz k, pack (d.nz k) values s.1 .z k 0 s.2)
  | .pi => (s.1 + d.nx (k + 1), pack (d.nx (k + 1)) values s.1 .pi k 0 s.2)
  | .lam => (s.1 + 2 * d.ni k, mulMask (2 * d.ni k) mask k (pack (2 * d.ni k) values s.1 .lam k 0 s.2))

/-- `ocp_nlp_set_all`, lines 2018-2100 (field `p`: see the parameter model) -/
def setAll [Mul K] (d : Dims) (mask : Nat → Nat → K) (f : Field) (values : Nat → K) (o : Adr → K) : Adr → K :=
  let n := match f with
    | .u | .z | .pi => d.N
    | _ => d.N + 1
  ((List.range n).foldl (setAllStage d mask f values) (0, o)).2

/-- loop body of `ocp_nlp_get_all`, lines 1916-1996, for one stage -/
def getAllStage (d : Dims) (o : Adr → K) (f : Field) (s : Nat × (Nat → K)) (k : Nat) : Nat × (Nat → K) :=
  match f with
  | .x => (s.1 + d.nx k, unpack (d.nx k) o .ux k (d.nu k) s.2 s.1)
  | .u => (s.1 + d.nu k, unpack (d.nu k) o .ux k 0 s.2 s.1)
  | .sl => (s.1 + d.ns k, unpack (d.ns k) o .ux k (d.nu k + d.nx k) s.2 s.1)
  | .su => (s.1 + d.ns k, unpack (d.ns k) o .ux k (d.nu k + d.nx k + d.ns k) s.2 s.1)
  | .s => (s.1 + 2 * d.ns k, unpack (2 * d.ns k) o .ux k (d.nu k + d.nx k) s.2 s.1)
  | .z => (s.1 + d.nz k, unpack (d.nz k) o .z k 0 s.2 s.1)
  | .pi => (s.1 + d.nx (k + 1), unpack (d.nx (k + 1)) o .pi k 0 s.2 s.1)
  | .lam => (s.1 + 2 * d.ni k, unpack (2 * d.ni k) o .lam k 0 s.2 s.1)

/-- `ocp_nlp_get_all`, lines 1907-1996 -/
def getAll (d : Dims) (o : Adr → K) (f : Field) (values : Nat → K) : Nat → K :=
  let n := match f with
    | .u | .z | .pi => d.N
    | _ => d.N + 1
  ((List.range n).foldl (getAllStage d o f) (0, values)).2

/-- `ocp_nlp_out_set`, lines 638-679; `none`: `exit(1)` -/
def outSet [Mul K] (d : Dims) (mask : Nat → Nat → K) (k : Nat) (f : Field) (values : Nat → K) (o : Adr → K) : Option (Adr → K) :=
  match f with
  | .x => some (pack (d.nx k) values 0 .ux k (d.nu k) o)
  | .u => some (pack (d.nu k) values 0 .ux k 0 o)
  | .sl => some (pack (d.ns k) values 0 .ux k (d.nu k + d.nx k) o)
  | .su => some (pack (d.ns k) values 0 .ux k (d.nu k + d.nx k + d.ns k) o)
  | .pi => some (pack (d.nx (k + 1)) values 0 .pi k 0 o)
  | .lam => some (mulMask (2 * d.ni k) mask k (pack (2 * d.ni k) values 0 .lam k 0 o))
  | .z => some (pack (d.nz k) values 0 .z k 0 o)
  | .s => none

/-- `ocp_nlp_out_get`, lines 695-745; `none`: `exit(1)` -/
def outGet (d : Dims) (k : Nat) (f : Field) (o : Adr → K) (values : Nat → K) : Option (Nat → K) :=
  match f with
  | .x => some (unpack (d.nx k) o .ux k (d.nu k) values 0)
  | .u => some (unpack (d.nu k) o .ux k 0 values 0)
  | .sl => some (unpack (d.ns k) o .ux k (d.nu k + d.nx k) values 0)
  | .su => some (unpack (d.ns k) o .ux k (d.nu k + d.nx k + d.ns k) values 0)
  | .z => some (unpack (d.nz k) o .z k 0 values 0)
  | .pi => some (unpack (d.nx (k + 1)) o .pi k 0 values 0)
  | .lam => some (unpack (2 * d.ni k) o .lam k 0 values 0)
  | .s => none

/-- the loops computing total dimensions, `ocp_nlp_common.c` lines 3464-3488 -/
def sumTo (n : Nat) (a : Nat → Nat) : Nat := (List.range n).foldl (fun t i => t + a i) 0

/-- `ocp_nlp_dims_get_total_from_attr`, lines 748-780 -/
def total (d : Dims) : Field → Nat
  | .x => sumTo (d.N + 1) d.nx
  | .u => sumTo d.N d.nu
  | .sl | .su => sumTo (d.N + 1) d.ns
  | .s => 2 * sumTo (d.N + 1) d.ns
  | .z => sumTo d.N d.nz
  | .pi => sumTo (d.N + 1) d.nx - d.nx 0
  | .lam => 2 * sumTo (d.N + 1) d.ni

/-! ### Resetting an iterate, with the memory layout -/

/-- sum of the lengths of the blocks before block `k` -/
def before (len : Nat → Nat) : Nat → Nat
  | 0 => 0
  | k + 1 => before len k + len k

/-- `ocp_nlp_out_assign`, `ocp_nlp_common.c` lines 1021-1040: the pointer stored in the structure of a stage vector, as
offset from the first vector.  The blocks of `ux`, `z`, `pi`, `lam` follow each other; `pad n` is the room a BLASFEO
vector of length `n` takes. -/
def start (pad : Nat → Nat) (d : Dims) (f : Fam) (k : Nat) : Nat :=
  let nv := fun k => pad (d.nu k + d.nx k + 2 * d.ns k)
  let nz := fun k => pad (d.nz k)
  let npi := fun k => pad (d.nx (k + 1))
  let nl := fun k => pad (2 * d.ni k)
  match f with
  | .ux => before nv k
  | .z => before nv (d.N + 1) + before nz k
  | .pi => before nv (d.N + 1) + before nz (d.N + 1) + before npi k
  | .lam => before nv (d.N + 1) + before nz (d.N + 1) + before npi d.N + before nl k

/-- end of the last block: `start` of the (absent) block `lam[N+1]` -/
def size (pad : Nat → Nat) (d : Dims) : Nat := start pad d .lam (d.N + 1)

/-- the structure `out->pi[i]`: the array `pi` has `N` structures and the array `lam` follows (lines 1012-1015), so
`pi[N]` is `lam[0]` -/
def piStart (pad : Nat → Nat) (d : Dims) (i : Nat) : Nat :=
  if i < d.N then start pad d .pi i else start pad d .lam (i - d.N)

/-- the entry `dims->nx[i]`: the array `nx` has `N+1` entries and the array `nu` follows
(`ocp_nlp_common.c` lines 261-263), so `nx[N+1]` is `nu[0]` -/
def nxEntry (d : Dims) (i : Nat) : Nat := if i ≤ d.N then d.nx i else d.nu (i - (d.N + 1))

/-- `blasfeo_dvecse(n, 0.0, vec, 0)` -/
def setZero [Zero K] (n start : Nat) (h : Nat → K) : Nat → K :=
  (List.range n).foldl (fun h i => Function.update h (start + i) 0) h

/-- loop body of `ocp_nlp_out_set_values_to_zero`, `ocp_nlp_interface.c` lines 687-690 -/
def resetStage [Zero K] (pad : Nat → Nat) (d : Dims) (h : Nat → K) (i : Nat) : Nat → K :=
  let h := setZero (d.nu i + d.nx i + 2 * d.ns i) (start pad d .ux i) h
  let h := setZero (d.nz i) (start pad d .z i) h
  let h := setZero (nxEntry d (i + 1)) (piStart pad d i) h
  setZero (2 * d.ni i) (start pad d .lam i) h

/-- `ocp_nlp_out_set_values_to_zero`, lines 682-692 -/
def reset [Zero K] (pad : Nat → Nat) (d : Dims) (h : Nat → K) : Nat → K :=
  (List.range (d.N + 1)).foldl (resetStage pad d) h

end Acados.Flat
