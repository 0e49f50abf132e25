import Mathlib.Algebra.Ring.Defs
/-!
# What a CasADi buffer denotes

CasADi's compressed column format: `[nrow, ncol, colind[0..ncol], row[0..nnz-1]]`, `colind[0] = 0`, `colind`
nondecreasing, row indices in range and strictly increasing in each column; the short form `[nrow, ncol, 1]` is a dense
matrix in column-major order.
-/
namespace Acados.Casadi

/-- a valid sparsity array -/
structure ValidSparsity (sp : Nat → Nat) : Prop where
  mono : sp 2 = 0 → ∀ j < sp 1, sp (2 + j) ≤ sp (2 + (j + 1))
  rowLt : sp 2 = 0 → ∀ j < sp 1, ∀ k, sp (2 + j) ≤ k → k < sp (2 + (j + 1)) → sp (sp 1 + 3 + k) < sp 0
  incr : sp 2 = 0 → ∀ j < sp 1, ∀ k, sp (2 + j) ≤ k → k + 1 < sp (2 + (j + 1)) →
    sp (sp 1 + 3 + k) < sp (sp 1 + 3 + (k + 1))

/-- number of structural nonzeros: the last column offset, or all entries -/
def count (sp : Nat → Nat) : Nat := if sp 2 = 0 then sp (2 + sp 1) else sp 0 * sp 1

/-- `M` is the matrix denoted by the pattern and the nonzeros `v` -/
structure Denotes {K : Type*} [Zero K] (sp : Nat → Nat) (v : Nat → K) (M : Nat → Nat → K) : Prop where
  dense : sp 2 ≠ 0 → ∀ i < sp 0, ∀ j < sp 1, M i j = v (i + j * sp 0)
  nonzero : sp 2 = 0 → ∀ j < sp 1, ∀ k, sp (2 + j) ≤ k → k < sp (2 + (j + 1)) → M (sp (sp 1 + 3 + k)) j = v k
  zero : sp 2 = 0 → ∀ i < sp 0, ∀ j < sp 1,
    (∀ k, sp (2 + j) ≤ k → k < sp (2 + (j + 1)) → sp (sp 1 + 3 + k) ≠ i) → M i j = 0

end Acados.Casadi
