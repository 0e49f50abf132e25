import Verif.Spec.QpLicq
import Verif.Model.Regularity

/-!
# `check_licq` of a QP description

`interfaces/acados_template/acados_template/acados_ocp_qp.py` lines 511-578. The numerical rank is
the rank. Infinite bounds, negative entries of `idxb` and arrays of wrong shape are not modelled.
-/

namespace Acados.QpLicq

section
variable {K : Type*} [Field K] [LinearOrder K]

/-- The value compared with the bounds, acados_ocp_qp.py:539-540, 552-553, 565-566. -/
def St.val (s : St K) : P → K
  | .bx j => s.x (s.idxb j)
  | .bu j => s.u j
  | .g j => ∑ c ∈ Finset.range s.nx, s.C j c * s.x c + ∑ c ∈ Finset.range s.nu, s.D j c * s.u c

/-- The gradient before its sign, acados_ocp_qp.py:541-542, 554-555, 567. -/
def St.gradv (s : St K) : P → ℕ → K
  | .bx j, q => if q = s.idxb j then 1 else 0
  | .bu j, q => if q = s.nx + j then 1 else 0
  | .g j, q => if q < s.nx then s.C j q else if q < s.nx + s.nu then s.D j (q - s.nx) else 0

/-- Rows of `A_active`: the dynamics, a gradient or the negative of it. -/
inductive Row
  | dyn (r : ℕ)
  | path (neg : Bool) (p : P)
  deriving DecidableEq

/-- Entries of a row, acados_ocp_qp.py:534, 541-542, 546-547, 554-555, 559-560, 567, 571. -/
def St.entry (s : St K) : Row → ℕ → K
  | .dyn r, q =>
    if q < s.nx then s.A r q
    else if q < s.nx + s.nu then s.B r (q - s.nx)
    else if q - (s.nx + s.nu) = r then -1 else 0
  | .path neg p, q => if neg then -s.gradv p q else s.gradv p q

open Classical in
/-- The row of a constraint, acados_ocp_qp.py:540-548, 553-561, 566-572. -/
noncomputable def St.active (s : St K) (p : P) : List Row :=
  if near (s.val p) (s.lo p) then [.path false p]
  else if near (s.val p) (s.up p) then [.path true p] else []

/-- `A_active`, acados_ocp_qp.py:529-572. -/
noncomputable def St.rows (s : St K) : List Row :=
  (List.range s.nx).map Row.dyn ++ s.cons.flatMap s.active

/-- The matrix `A_active_matrix`, acados_ocp_qp.py:574. -/
noncomputable def St.mat (s : St K) : Matrix (Fin s.rows.length) (Fin (s.nx + s.nu + s.nx)) K :=
  Matrix.of fun a b => s.entry s.rows[a] b

/-- Exceptions: `hstack` of `A` and an identity with other rows (acados_ocp_qp.py:534), indices
outside of the state (line 540) or of the control (line 553). -/
def St.ok (s : St K) : Bool :=
  s.nxn == s.nx && (List.range s.nbx).all (fun j => decide (s.idxb j < s.nx)) &&
    decide (s.nbu ≤ s.nu)

open Classical in
/-- One pass of the loop, acados_ocp_qp.py:522-577; `none` is an exception. -/
noncomputable def St.check (s : St K) : Option Bool :=
  if s.ok then some (decide (¬ s.mat.rank < s.rows.length)) else none

/-- `check_licq`, acados_ocp_qp.py:511-578. -/
noncomputable def checkLicq (N : ℕ) (st : ℕ → St K) : Option Bool :=
  Regularity.loop (fun k => (st k).check) (List.range N)

end

end Acados.QpLicq
