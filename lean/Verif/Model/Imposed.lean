import Verif.Model.Tools

/-!
# What `t_func` reports for imposed spells (tools.py:60-104, engine.py:248-264)

`Model/Tools.lean` has the cell of the tables that is used (`Step.l`, `Step.k`, natural numbers). The code returns the integers `set_l`, `set_k`
themselves if they were imposed (engine.py:252, 264); numba counts negative indices from the end (engine.py:255-256) and does not check the others.
-/

set_option autoImplicit false

namespace Pydsge.Tools

open Matrix Pydsge.Engine Pydsge.GenSys

variable {z ε p o K : Type} [Fintype z] [Fintype ε] [Fintype p] [Fintype o] [DecidableEq z] [DecidableEq ε] [DecidableEq p]
  [Field K] [LinearOrder K]

/-- What `t_func(..., return_k=True)` returns (tools.py:100). -/
structure Returned (z p K : Type) where
  state : p ⊕ z → K
  l : Int
  k : Int
  flag : Nat

/-- tools.py:17-104 `t_func(..., return_k=True)`: `(l,k)` of the search if `set_k == -1` (engine.py:248-250), else the imposed integers. -/
def tFuncK (m : Model z ε p o K) (state : p ⊕ z → K) (shocks : ε → K) (sk : SetK) (linear : Bool) : Except PyErr (Returned z p K) :=
  match tFunc m state shocks sk linear with
  | .error e => .error e
  | .ok r =>
    if (setLK linear sk).2 = -1 then .ok ⟨r.state, r.l, r.k, r.flag⟩
    else .ok ⟨r.state, (setLK linear sk).1, (setLK linear sk).2, r.flag⟩

end Pydsge.Tools
