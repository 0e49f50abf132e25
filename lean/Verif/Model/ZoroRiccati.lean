import Verif.Model.Zoro
/-!
# Riccati feedback gains of the zero-order robust optimisation update

`zoro.in.c` 654-755, 996-1307, 1826-1833.  As in `Model/Zoro.lean` the template is modelled after rendering.  The
rendered code of the three Riccati modes only compiles if no general linear row is tightened: lines 688, 689, 707,
708, 732, 744 contain the loop variable `it` outside of the template brackets (`compiles`).  The Cholesky
factorisation and the triangular solves of BLASFEO and the bounds in the QP are parameters.
-/
namespace Acados.Zoro
open Matrix

/-- `feedback_optimization_mode` without `CONSTANT_FEEDBACK` -/
inductive RMode | const | barrier1 | barrier2
deriving DecidableEq

/-- `riccati_*_const`, zoro_description.py 87-94, and `tau`, zoro.in.c 510 -/
structure RDesc (K : Type*) (d : Dims) where
  mode : RMode
  Q : Mat K d.nx d.nx
  R : Mat K d.nu d.nu
  S : Mat K d.nu d.nx
  Qe : Mat K d.nx d.nx
  tau : K

/-- `blasfeo_dpotrf_l`, `blasfeo_dtrsm_llnn`, `blasfeo_dtrsm_lltn` -/
structure Chol (K : Type*) (d : Dims) where
  potrf : Mat K d.nu d.nu → Mat K d.nu d.nu
  solveN : Mat K d.nu d.nu → Mat K d.nu d.nx → Mat K d.nu d.nx
  solveT : Mat K d.nu d.nu → Mat K d.nu d.nx → Mat K d.nu d.nx

/-- bounds in `nlp_mem->qp_in`, read with `d_ocp_qp_get_lbu` .. `d_ocp_qp_get_ug` -/
structure QpB (K : Type*) (d : Dims) where
  lo : Nat → Row d → K
  hi : Nat → Row d → K
  loE : RowE d → K
  hiE : RowE d → K

/-- a row of `dct_dux`: gradients with respect to `u` (left) and `x` -/
structure Grad (K : Type*) (d : Dims) where
  u : Fin d.nu → K
  x : Fin d.nx → K

/-- `dct_dux`, `dcet_dx`, `riccati_Q_mat`, `riccati_R_mat`, `riccati_S_mat`, `riccati_K_buffer` of the memory -/
structure RMem (K : Type*) (d : Dims) where
  dct : Nat → Grad K d
  dcet : Nat → Fin d.nx → K
  Q : Mat K d.nx d.nx
  R : Mat K d.nu d.nu
  S : Mat K d.nu d.nx
  gain : Nat → Mat K d.nu d.nx

variable {K : Type*} [Field K] [LinearOrder K] {d : Dims}

def ofKind (rows : List (Row d)) (k : Kind) : List (Row d) := rows.filter fun r => r.kind = k
def ofKindE (rows : List (RowE d)) (k : Kind) : List (RowE d) := rows.filter fun r => r.kind = k

/-- the rows of `dct_dux` in their order; `true`: lower bound.  zoro.in.c 685-726, 1013-1128 -/
def rowsOf (ds : Desc K d) : List (Bool × Row d) :=
  (ofKind ds.loT .bu ++ ofKind ds.loT .bx ++ ofKind ds.loT .g ++ ofKind ds.loT .h).map (Prod.mk true) ++
  (ofKind ds.hiT .bu ++ ofKind ds.hiT .bx ++ ofKind ds.hiT .g ++ ofKind ds.hiT .h).map (Prod.mk false)

/-- the rows of `dcet_dx` in their order, zoro.in.c 728-746, 1155-1240 -/
def rowsOfE (ds : Desc K d) : List (Bool × RowE d) :=
  (ofKindE ds.loTE .bx ++ ofKindE ds.loTE .g ++ ofKindE ds.loTE .h).map (Prod.mk true) ++
  (ofKindE ds.hiTE .bx ++ ofKindE ds.hiTE .g ++ ofKindE ds.hiTE .h).map (Prod.mk false)

/-- the rendered code compiles -/
def compiles (ds : Desc K d) : Bool :=
  !(hasKind ds.loT .g || hasKind ds.hiT .g || hasKindE ds.loTE .g || hasKindE ds.hiTE .g)

/-- constant part of `dct_dux`, zoro.in.c 679-718; rows of general linear constraints do not compile -/
def initRow (n : Nlp K d) : Row d → Grad K d
  | .bu i => ⟨Pi.single (n.idxbu i) 1, 0⟩
  | .bx i => ⟨0, Pi.single (n.idxbx i) 1⟩
  | .g _ => ⟨0, 0⟩
  | .h _ => ⟨0, 0⟩

/-- constant part of `dcet_dx`, zoro.in.c 720-746: `idxbx`, not `idxbx_e`, is used for the bounds; with more
terminal bounds than path bounds the array is left (`riccatiUb`) -/
def initRowE (n : Nlp K d) : RowE d → Fin d.nx → K
  | .bx i => if h : i < d.nbx then Pi.single (n.idxbx ⟨i, h⟩) 1 else 0
  | .g _ => 0
  | .h _ => 0

/-- an access past the end of `idxbx` -/
def riccatiUb (ds : Desc K d) : Bool :=
  (rowsOfE ds).any fun p => match p.2 with
    | .bx i => !decide ((i : Nat) < d.nbx)
    | _ => false

/-- entry of a list of rows, the value of an unused row of the matrix being zero -/
def rowFn {α β : Type*} (f : α → β) (z : β) (l : List α) (i : Nat) : β := ((l.map f)[i]?).getD z

/-- `custom_val_init_function`, zoro.in.c 654-746 -/
def initR (ds : Desc K d) (rd : RDesc K d) (n : Nlp K d) : RMem K d where
  dct := rowFn (fun p => initRow n p.2) ⟨0, 0⟩ (rowsOf ds)
  dcet := rowFn (fun p => initRowE n p.2) 0 (rowsOfE ds)
  Q := rd.Q
  R := rd.R
  S := rd.S
  gain := fun _ => 0

/-- weight of a row from the value of its constraint and its squared back-off, zoro.in.c 1017-1022 and the
same for the other rows -/
def weight (sq : K → K) (rd : RDesc K d) (val bsq : K) : K :=
  if rd.mode = .barrier1 then rd.tau / (val * val) else -1 * rd.tau / val / (2 * sq bsq)

/-- `temp_nominal_val`: lower bounds 1017, 1030, 1050, 1065, upper bounds 1079, 1092, 1105, 1120 -/
def nominal (sq : K → K) (lower : Bool) (lo hi bsq : K) : K := if lower then lo - sq bsq else -hi - sq bsq

/-- working data of `update_riccati_quad_matrices`: `dct_dux` and `scaled_dct_dux` -/
structure Work (K : Type*) (d : Dims) where
  dct : Nat → Grad K d
  sc : Nat → Grad K d

/-- one row, zoro.in.c 1017-1023 (bounds), 1061-1071 and 1116-1126 (nonlinear rows: the gradient with respect to
the input is packed into row 0, that with respect to the state into row `ir`) -/
def quadRow (sq : K → K) (rd : RDesc K d) (m : Mem K d) (l : Lin K d) (q : QpB K d) (k : Nat)
    (s : Work K d) (ir : Nat) (p : Bool × Row d) : Work K d :=
  let w := weight sq rd (nominal sq p.1 (q.lo k p.2) (q.hi k p.2) (m.bsq k p.2)) (m.bsq k p.2)
  let s : Work K d := match p.2 with
    | .h i =>
      let pack : (Nat → Grad K d) → Nat → Grad K d := fun M =>
        let M := Function.update M 0 ⟨l.Dh k i, (M 0).x⟩
        Function.update M ir ⟨(M ir).u, l.Ch k i⟩
      ⟨pack s.dct, pack s.sc⟩
    | _ => s
  { s with sc := Function.update s.sc ir ⟨w • (s.sc ir).u, w • (s.sc ir).x⟩ }

/-- loop over the rows with the counter `ir` -/
def overRows {α β : Type*} (f : β → Nat → α → β) : Nat → List α → β → β
  | _, [], s => s
  | ir, p :: ps, s => overRows f (ir + 1) ps (f s ir p)

/-- sum over the rows of `blasfeo_dgemm_tn(.., NCT, ..)` -/
def gram {a b : Nat} (n : Nat) (f : Nat → Fin a → K) (g : Nat → Fin b → K) : Mat K a b :=
  fun i j => ∑ r ∈ Finset.range n, f r i * g r j

/-- `update_riccati_quad_matrices`, zoro.in.c 996-1137 -/
def quadStage (sq : K → K) (ds : Desc K d) (rd : RDesc K d) (m : Mem K d) (l : Lin K d) (q : QpB K d) (k : Nat)
    (rm : RMem K d) : RMem K d :=
  let s := overRows (quadRow sq rd m l q k) 0 (rowsOf ds) ⟨rm.dct, rm.dct⟩
  let n := (rowsOf ds).length
  { rm with
    dct := s.dct
    Q := gram n (fun r => (s.dct r).x) (fun r => (s.sc r).x) + rd.Q
    R := gram n (fun r => (s.dct r).u) (fun r => (s.sc r).u) + rd.R
    S := gram n (fun r => (s.dct r).u) (fun r => (s.sc r).x) + rd.S }

structure WorkE (K : Type*) (d : Dims) where
  dct : Nat → Fin d.nx → K
  sc : Nat → Fin d.nx → K

/-- one terminal row, zoro.in.c 1159-1165, 1189-1197, 1205-1211, 1230-1238 -/
def quadRowE (sq : K → K) (rd : RDesc K d) (m : Mem K d) (l : Lin K d) (q : QpB K d)
    (s : WorkE K d) (ir : Nat) (p : Bool × RowE d) : WorkE K d :=
  let w := weight sq rd (nominal sq p.1 (q.loE p.2) (q.hiE p.2) (m.bsqE p.2)) (m.bsqE p.2)
  let s : WorkE K d := match p.2 with
    | .h i => ⟨Function.update s.dct ir (l.Che i), Function.update s.sc ir (l.Che i)⟩
    | _ => s
  { s with sc := Function.update s.sc ir (w • s.sc ir) }

/-- `update_riccati_quad_matrices_terminal`, zoro.in.c 1140-1244 -/
def quadTerminal (sq : K → K) (ds : Desc K d) (rd : RDesc K d) (m : Mem K d) (l : Lin K d) (q : QpB K d)
    (rm : RMem K d) : RMem K d :=
  let s := overRows (quadRowE sq rd m l q) 0 (rowsOfE ds) ⟨rm.dcet, rm.dcet⟩
  { rm with dcet := s.dct, Q := gram (rowsOfE ds).length s.dct s.sc + rd.Qe }

/-- one step of `riccati_recursion`, zoro.in.c 1263-1302; `P` is `temp_riccati_P_plus_mat` -/
def ricStep (sq : K → K) (ch : Chol K d) (ds : Desc K d) (rd : RDesc K d) (m : Mem K d) (l : Lin K d) (q : QpB K d)
    (s : RMem K d × Mat K d.nx d.nx) (k : Nat) : RMem K d × Mat K d.nx d.nx :=
  let rm := if rd.mode = .const then s.1 else quadStage sq ds rd m l q k s.1
  let A := l.A k
  let B := l.B k
  let P := s.2
  let BP := Bᵀ * P
  let RB := BP * B + rm.R
  let SA := BP * A + rm.S
  let L := ch.potrf RB
  let X := ch.solveN L SA
  let Kk := ch.solveT L X
  let P1 := -(Xᵀ * X) + rm.Q
  let P2 := (Aᵀ * P) * A + P1
  ({ rm with gain := Function.update rm.gain k Kk }, P2)

/-- `riccati_recursion`, zoro.in.c 1247-1307 -/
def riccati (sq : K → K) (ch : Chol K d) (ds : Desc K d) (rd : RDesc K d) (m : Mem K d) (l : Lin K d) (q : QpB K d)
    (rm : RMem K d) : RMem K d :=
  let s : RMem K d × Mat K d.nx d.nx :=
    if rd.mode = .const then (rm, rd.Qe)
    else
      let rm := quadTerminal sq ds rd m l q rm
      (rm, rm.Q)
  -- for (ii = N-1; ii >= 1; ii--)
  let s := ((List.range (d.N - 1)).map fun i => d.N - 1 - i).foldl (ricStep sq ch ds rd m l q) s
  { s.1 with gain := Function.update s.1.gain 0 0 }

/-- `custom_update_function` in a Riccati mode, zoro.in.c 1758-1861: the gains come from the memory as it is
after the payload has been taken over, in particular from the back-offs of the previous update -/
def updateRic (sq : K → K) (ch : Chol K d) (ds : Desc K d) (rd : RDesc K d) (l : Lin K d) (q : QpB K d)
    (data : List K) (m : Mem K d) (rm : RMem K d) (n : Nlp K d) : Out K d × RMem K d :=
  match streaming ds data with
  | none => (.err, rm)
  | some str =>
    if riccatiUb ds then (.ub, rm)
    else
      let rm' := riccati sq ch ds rd (readData ds str data m) l q rm
      (updateWith sq ds l rm'.gain data m n, rm')

end Acados.Zoro
