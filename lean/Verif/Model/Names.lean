import Verif.Model.GenSys

/-!
# The list of variables after `gen_sys` (gensys.py:262-306, 332-341)
-/

set_option autoImplicit false

namespace Pydsge.GenSys

variable {E ν ε o K : Type} [Fintype E] [Fintype ν] [Fintype ε] [Fintype o]
  [DecidableEq E] [DecidableEq ν] [DecidableEq ε] [Field K] [LinearOrder K]

/-- Variables followed by the auxiliary lags (gensys.py:269 `vv0`), in the order of the list `order` of declared variables. -/
def allVars {H : Type} (order : List ν) (hybs : List H) : List (ν ⊕ H) := order.map .inl ++ hybs.map .inr

/-- gensys.py:269: names; the auxiliary variable of `v` is called `v_lag`. -/
def nameOf {H : Type} (name : ν → String) (hyb : H → ν) : ν ⊕ H → String
  | .inl v => name v
  | .inr h => name (hyb h) ++ "_lag"

section
variable {H : Type} [DecidableEq H] (tol : K) (m : Input E ν ε o K) (hyb : H → ν) [DecidablePred (inall tol m)]

open Classical in
/-- gensys.py:332 `svv = vv0[inq[:-dimeps]]`. -/
noncomputable def svv (vv0 : List (ν ⊕ H)) : List (ν ⊕ H) := vv0.filter (fun w => inq tol m hyb (.inl w))

open Classical in
/-- gensys.py:333 `cvv = vv0[inp[:-dimeps]]`. -/
noncomputable def cvv (vv0 : List (ν ⊕ H)) : List (ν ⊕ H) := vv0.filter (fun w => inp tol m hyb (.inl w))

/-- gensys.py:334. -/
noncomputable def vv (vv0 : List (ν ⊕ H)) : List (ν ⊕ H) := cvv tol m hyb vv0 ++ svv tol m hyb vv0

open Classical in
/-- gensys.py:305 `dimq = sum(inq)`, over y-space. -/
noncomputable def dimq (vv0 : List (ν ⊕ H)) (shocks : List ε) : Nat :=
  ((vv0.map Sum.inl ++ shocks.map Sum.inr : List (Cols ν H ε)).filter (fun y => inq tol m hyb y)).length

open Classical in
/-- gensys.py:306 `dimp = sum(inp)`, over y-space. -/
noncomputable def dimp (vv0 : List (ν ⊕ H)) (shocks : List ε) : Nat :=
  ((vv0.map Sum.inl ++ shocks.map Sum.inr : List (Cols ν H ε)).filter (fun y => inp tol m hyb y)).length

end
end Pydsge.GenSys
