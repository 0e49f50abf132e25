import Verif.Model.QpOpts

/-!
# Specification: the value an option has after a history of calls

Written over the names the user passes, not over the way they are dispatched.
-/

namespace Acados.QpOpts.Spec

open Acados.QpOpts

variable {K : Type}

/-- the value after a call: a call under one of the names sets it, a call under one of the reset names sets it to `r` -/
def after (names resets : List Name) (r : K) (a : K) : Ev K → K
  | .set f (.dbl x) => if f ∈ names then x else if f ∈ resets then r else a
  | .set f _ => if f ∈ resets then r else a
  | _ => a

/-- the value last set under one of the names, `d` if there was none -/
def last (names resets : List Name) (r d : K) (h : List (Ev K)) : K := h.foldl (after names resets r) d

/-- all values set under one of the names -/
def values (names : List Name) : List (Ev K) → List K
  | [] => []
  | .set f (.dbl x) :: h => if f ∈ names then x :: values names h else values names h
  | _ :: h => values names h

/-- no call in the history selects an adaptive strategy for the QP tolerances -/
def Fixed (h : List (Ev K)) : Prop :=
  ∀ v : Val K, Ev.set "nlp_qp_tol_strategy".toList v ∈ h → v = .int 0

/-- the events before the first QP solve -/
def beforeSolve : List (Ev K) → List (Ev K)
  | [] => []
  | .qp _ :: _ => []
  | e :: h => e :: beforeSolve h

/-- both names of a tolerance: of the NLP and of the QP -/
def both (t : String) : List Name := [t.toList, ("qp_" ++ t).toList]

/-- all names of the tolerances for equality and inequality constraints -/
def feasTols : List Name :=
  ["tol_eq".toList, "tol_ineq".toList, "qp_tol_eq".toList, "qp_tol_ineq".toList]

/-- the names of all tolerances -/
def allTols : List Name :=
  ["tol_stat".toList, "tol_eq".toList, "tol_ineq".toList, "tol_comp".toList,
   "qp_tol_stat".toList, "qp_tol_eq".toList, "qp_tol_ineq".toList, "qp_tol_comp".toList]

/-- the name that selects a mode of HPIPM -/
def modeName : List Name := ["qp_hpipm_mode".toList]

/-- the value of an integer option after a call -/
def afterInt (name : String) (a : Int) : Ev K → Int
  | .set f (.int n) => if f = name.toList then n else a
  | _ => a

/-- the value of an integer option last set, `d` if there was none -/
def lastInt (name : String) (d : Int) (h : List (Ev K)) : Int := h.foldl (afterInt name) d

/-- a call that selects a mode of HPIPM -/
def IsMode (e : Ev K) : Prop := ∃ v, e = .set "qp_hpipm_mode".toList v

end Acados.QpOpts.Spec
