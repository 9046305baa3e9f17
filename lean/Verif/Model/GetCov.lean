import Verif.Model.Params

/-!
# `get_cov` (pydsge/mpile.py:272-274)
-/

set_option autoImplicit false

namespace Pydsge.Params

variable {K PP VV HX LS TT QQ : Type} [Field K] [LinearOrder K]

/-- mpile.py:272-274 `get_cov(npar)`: `get_par("cov_mat", npar=npar)`. Keyword arguments that `get_par` consumes (`full`, `asdict`, ...) have no
effect for this name and are left out. -/
def getCov (S : Solver K PP VV HX LS TT QQ) (D : Decl K) (dr : Draws K) (g : GenArgs) (ob : Obj K PP VV HX LS TT QQ) (npar : Option (List K)) :
    Obj K PP VV HX LS TT QQ × Except PyErr (ParVal K QQ) :=
  getPar S D dr g ob (.str "cov_mat") npar true 1

end Pydsge.Params
