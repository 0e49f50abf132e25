/-!
# Model of the raw-memory helpers (`acados/utils/mem.c`)

Addresses and sizes are natural numbers (no wrap-around of `size_t`).
The asserts of `mem.c` are an explicit failing outcome (`none`).
-/
namespace Acados.Mem

/-- `make_int_multiple_of`, acados/utils/mem.c:59-65. -/
def makeIntMultipleOf (num size : Nat) : Nat :=
  if num > 1 then (size + num - 1) / num * num else size

/-- Pointer part of `align_char_to`, acados/utils/mem.c:69-76. -/
def alignCharTo (num ptr : Nat) : Nat :=
  (ptr + num - 1) / num * num

/-- Return value (`offset`) of `align_char_to`, acados/utils/mem.c:71-73
(an `int`, here an integer). -/
def alignCharToOffset (num ptr : Nat) : Int :=
  (num : Int) - ((alignCharTo num ptr : Int) - (ptr : Int))

/-- The BLASFEO size functions used by acados.  BLASFEO is an external package (empty submodule
in /repo), so the two functions are parameters; `dmat64` and `dvec8` are the two facts the asserts
in mem.c:219-221 and mem.c:204 rely on for consecutively placed objects. -/
structure Blasfeo where
  /-- `blasfeo_memsize_dmat(m, n)` -/
  dmat : Nat → Nat → Nat
  /-- `blasfeo_memsize_dvec(n)` -/
  dvec : Nat → Nat
  dmat64 : ∀ m n, 64 ∣ dmat m n
  dvec8 : ∀ n, 8 ∣ dvec n

/-- One statement of an `*_assign` function. -/
inductive Op where
  /-- `align_char_to(a, &c_ptr)` -/
  | align (a : Nat)
  /-- hand out `size` bytes at `c_ptr` and advance.  `natural` is the alignment the element type
  needs; `asserted` says whether mem.c asserts it. -/
  | alloc (natural : Nat) (asserted : Bool) (size : Nat)
  deriving Repr, DecidableEq

/-- `c_ptr += sizeof(T)` for a struct placed at the start of a buffer (8-byte natural alignment). -/
def Op.struct (size : Nat) : Op := .alloc 8 false size
/-- a sub-object of `size` bytes whose own assign function aligns for itself: `c_ptr += size`. -/
def Op.raw (size : Nat) : Op := .alloc 1 false size
/-- `assign_and_advance_*_ptrs` / `_structs`, mem.c:93-146 (8-byte pointers; `w` bytes each). -/
def Op.ptrs (w n : Nat) : Op := .alloc 8 true (w * n)
/-- `assign_and_advance_int`, mem.c:159-168 (no assert; `int` is 4 bytes). -/
def Op.ints (n : Nat) : Op := .alloc 4 false (4 * n)
/-- `assign_and_advance_bool`, mem.c:170-179. -/
def Op.bools (n : Nat) : Op := .alloc 1 false n
/-- `assign_and_advance_double`, mem.c:181-192. -/
def Op.doubles (n : Nat) : Op := .alloc 8 true (8 * n)
/-- a `double` array carved without an assert (plain pointer arithmetic). -/
def Op.rawDoubles (n : Nat) : Op := .alloc 8 false (8 * n)
/-- `assign_and_advance_blasfeo_dvec_mem`, mem.c:194-205. -/
def Op.dvec (B : Blasfeo) (n : Nat) : Op := .alloc 8 true (B.dvec n)
/-- `assign_and_advance_blasfeo_dmat_mem`, mem.c:207-222 (LA_HIGH_PERFORMANCE branch). -/
def Op.dmat (B : Blasfeo) (m n : Nat) : Op := .alloc 64 true (B.dmat m n)

/-- A region handed out by an assign function. -/
structure Region where
  start : Nat
  size : Nat
  natural : Nat
  deriving Repr, DecidableEq

/-- Run an assign function from the current pointer; `none` is an assertion failure. Returns the
regions handed out, in order, and the final pointer. -/
def run : List Op → Nat → Option (List Region × Nat)
  | [], p => some ([], p)
  | .align a :: t, p => run t (alignCharTo a p)
  | .alloc nat asserted size :: t, p =>
    if asserted && p % nat != 0 then none
    else match run t (p + size) with
      | none => none
      | some (rs, q) => some (⟨p, size, nat⟩ :: rs, q)

end Acados.Mem
