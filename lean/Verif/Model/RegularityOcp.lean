import Verif.Model.Regularity
import Verif.Model.CasadiNlp

/-!
The data that the checks of `Model/Regularity.lean` read, for an NLP built from an optimal control
problem as in `Model/CasadiNlp.lean`.
-/

namespace Acados.Regularity

open CasadiNlp (Sym Ocp)

/-- After a call of `solve`: `nlp_sol_w`, `nlp_sol_lam_w`, `nlp_sol_g`, `nlp_sol_lam_g`, `bounds`,
`index_map` (acados_casadi_ocp_solver.py:79-83, 130-138) for values `v`, multipliers `μ`, `μg` and
partial derivatives `D`; `dims` as in acados_casadi_ocp_solver.py:580-588. -/
def ofNlp {K : Type*} [Field K] (o : Ocp K) (n : CasadiNlp.Nlp K) (v μ : Sym → K)
    (μg : CasadiNlp.Con → K) (D : CasadiNlp.Con → Sym → K) (tol : K) : Nlp K where
  N := o.N
  lbw := fun p => (n.v.lbw[p]?).join
  ubw := fun p => (n.v.ubw[p]?).join
  w := fun p => ((n.v.w[p]?).map v).getD 0
  lamW := fun p => ((n.v.w[p]?).map μ).getD 0
  lbg := fun p => (n.c.lbg[p]?).join
  ubg := fun p => (n.c.ubg[p]?).join
  g := fun p => ((n.c.g[p]?).map (CasadiNlp.Con.eval o v)).getD 0
  lamG := fun p => ((n.c.g[p]?).map μg).getD 0
  jac := fun p q => ((n.c.g[p]?).map (fun c => ((n.v.w[q]?).map (D c)).getD 0)).getD 0
  xInW := fun k => (n.v.xInW[k]?).getD []
  uInW := fun k => (n.v.uInW[k]?).getD []
  lamBx := fun k => (n.v.lamBx[k]?).getD []
  lamBu := fun k => (n.v.lamBu[k]?).getD []
  pi := fun k => (n.c.pi[k]?).getD []
  lamGnl := n.c.lamGnl
  lamGnlSl := n.c.lamGnlSl
  lamGnlSu := n.c.lamGnlSu
  lamSl := fun k => (n.v.lamSl[k]?).getD []
  lamSu := fun k => (n.v.lamSu[k]?).getD []
  nbx0 := o.init.nbx
  nbx := o.path.nbx
  nbxe := o.term.nbx
  nbu := o.nbu
  tol := tol

end Acados.Regularity
