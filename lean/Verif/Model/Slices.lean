import Verif.Model.Names

/-!
# Positions in the vectors of `gen_sys` and `t_func` (gensys.py:301-334, 346-350; tools.py:75-91)

`Model/GenSys.lean` and `Model/Tools.lean` index by variables. Here the code's slices `[:-dimeps]` and `[-dimq + dimeps:]` are taken literally:
a list of what stands at each position.
-/

set_option autoImplicit false

namespace Pydsge.Slices

open Pydsge.GenSys

variable {E ν ε o H K : Type} [Fintype E] [Fintype ν] [Fintype ε] [Fintype o] [DecidableEq E] [DecidableEq ν] [DecidableEq ε] [DecidableEq H]
  [Field K] [LinearOrder K]

/-- `xs[mask]` for a boolean mask: the lengths have to be equal. -/
def pick {α : Type} (xs : List α) (mask : List Bool) : Except PyErr (List α) :=
  if mask.length = xs.length then .ok (((xs.zip mask).filter (·.2)).map (·.1)) else .error .indexError

/-- y-space: variables, then shocks (gensys.py:288). -/
def ySpace (vv0 : List (ν ⊕ H)) (shocks : List ε) : List (Cols ν H ε) := vv0.map .inl ++ shocks.map .inr

section
variable (tol : K) (m : Input E ν ε o K) (hyb : H → ν) [DecidablePred (inall tol m)]

open Classical in
/-- gensys.py:301. -/
noncomputable def qMask (vv0 : List (ν ⊕ H)) (shocks : List ε) : List Bool := (ySpace vv0 shocks).map fun y => decide (inq tol m hyb y)

open Classical in
/-- gensys.py:302. -/
noncomputable def pMask (vv0 : List (ν ⊕ H)) (shocks : List ε) : List Bool := (ySpace vv0 shocks).map fun y => decide (inp tol m hyb y)

/-- gensys.py:332-334: `vv = hstack((vv0[inp[:-dimeps]], vv0[inq[:-dimeps]]))`, the labels of a state. -/
noncomputable def labels (vv0 : List (ν ⊕ H)) (shocks : List ε) : Except PyErr (List (ν ⊕ H)) :=
  match pick vv0 (sliceTo (qMask tol m hyb vv0 shocks) (-(shocks.length : Int))) with
  | .error e => .error e
  | .ok svv =>
    match pick vv0 (sliceTo (pMask tol m hyb vv0 shocks) (-(shocks.length : Int))) with
    | .error e => .error e
    | .ok cvv => .ok (cvv ++ svv)

open Classical in
/-- gensys.py:346-350: the columns `[:, inq]` of the system, so the rows and columns of `qmat`. -/
noncomputable def qOrder (vv0 : List (ν ⊕ H)) (shocks : List ε) : List (Cols ν H ε) := (ySpace vv0 shocks).filter fun y => inq tol m hyb y

open Classical in
/-- gensys.py:346-350: the columns `[:, inp]` of the system, so the rows of `pmat`. -/
noncomputable def pOrder (vv0 : List (ν ⊕ H)) (shocks : List ε) : List (Cols ν H ε) := (ySpace vv0 shocks).filter fun y => inp tol m hyb y

/-- tools.py:78-79, 91: what stands at each position of the new state, `hstack((p, q))` with `q` from `qmat[:, :, :-dimeps]`. -/
noncomputable def newOrder (vv0 : List (ν ⊕ H)) (shocks : List ε) : List (Cols ν H ε) :=
  pOrder tol m hyb vv0 shocks ++ sliceTo (qOrder tol m hyb vv0 shocks) (-(shocks.length : Int))

/-- tools.py:84-85, engine.py:246: what the caller puts at each position of `s = hstack((state[-dimq + dimeps:], shocks))`, for a state with the given labels. -/
noncomputable def inOrder (vv0 : List (ν ⊕ H)) (shocks : List ε) (labels : List (ν ⊕ H)) : List (Cols ν H ε) :=
  (sliceFrom labels (-((qOrder tol m hyb vv0 shocks).length : Int) + (shocks.length : Int))).map .inl ++ shocks.map .inr

end

/-- tools.py:75-91 for `p`, `q` as functions of `s` (lists of numbers). -/
def stepList (pf qf : List K → List K) (dimq neps : Nat) (state shocks : List K) : List K :=
  let s := sliceFrom state (-(dimq : Int) + (neps : Int)) ++ shocks
  pf s ++ sliceTo (qf s) (-(neps : Int))

end Pydsge.Slices
