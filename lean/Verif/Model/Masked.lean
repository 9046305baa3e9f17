import Verif.Model.Slices

/-!
# Variables without a place in the system, and what `gen_sys` prints (gensys.py:254-267, 301-361)

The steps of `gen_sys` from the masks to the first use of the reduced system, with the shapes of the arrays, and the messages that it prints with
`verbose=2`.
-/

set_option autoImplicit false

namespace Pydsge.Masked

open Pydsge.GenSys Pydsge.Slices

variable {E ν ε o H K : Type} [Fintype E] [Fintype ν] [Fintype ε] [Fintype o] [DecidableEq E] [DecidableEq ν] [DecidableEq ε] [DecidableEq H]
  [Field K] [LinearOrder K]

/-- gensys.py:354-361: `Q` is a square matrix with as many rows as the system (`scipy.linalg.rq` of `MU.T`), `gg` has `dimp + dimq` entries (l.351). -/
def applyQ (rows dimy : Nat) : Except PyErr Unit := if dimy = rows then .ok () else .error .valueError

section
variable (tol : K) (m : Input E ν ε o K) (hyb : H → ν) [DecidablePred (inall tol m)]

/-- gensys.py:301-361: the labels `vv`, if the function comes that far. `AA0` has one row per equation (l.143); rows for the auxiliary variables
(l.270), the shocks (l.289) and the constraint (l.323) are added. -/
noncomputable def genMasked (order : List ν) (hybs : List H) (shocks : List ε) (hxOnly : Bool) : Except PyErr (List (ν ⊕ H)) :=
  match labels tol m hyb (allVars order hybs) shocks with
  | .error e => .error e
  | .ok l =>
    if hxOnly then .ok l
    else
      match applyQ (Fintype.card E + hybs.length + shocks.length + 1)
          (dimp tol m hyb (allVars order hybs) shocks + dimq tol m hyb (allVars order hybs) shocks) with
      | .error e => .error e
      | .ok _ => .ok l

/-- `[self.variables[i].name for i, e in enumerate(mask) if e]`, from position `i` on; `none`: there is no attribute `variables`. -/
def namesFrom (vars : Option (List String)) : Nat → List Bool → Except PyErr (List String)
  | _, [] => .ok []
  | i, false :: bs => namesFrom vars (i + 1) bs
  | i, true :: bs =>
    match vars with
    | none => .error .attributeError
    | some vs =>
      match vs[i]? with
      | none => .error .indexError
      | some n =>
        match namesFrom vars (i + 1) bs with
        | .error e => .error e
        | .ok ns => .ok (n :: ns)

/-- What is printed: forward-looking, backward-looking, hybrid and missing variables. -/
structure Msgs where
  fwd : List String
  bwd : List String
  hybrid : List String
  missing : List String

open Classical in
/-- gensys.py:254-258, 264-266, 308-310, with `verbose > 1`. -/
noncomputable def genMsgs (vars : Option (List String)) (order : List ν) (hybs : List H) (shocks : List ε) : Except PyErr Msgs :=
  match namesFrom vars 0 (order.map fun v => decide (¬ fast0Col tol m.AA0 v)) with
  | .error e => .error e
  | .ok fwd =>
    match namesFrom vars 0 (order.map fun v => decide (¬ fast0Col tol m.CC0 v)) with
    | .error e => .error e
    | .ok bwd =>
      match namesFrom vars 0 (order.map fun v => decide (inall tol m v)) with
      | .error e => .error e
      | .ok hy =>
        match namesFrom vars 0 ((ySpace (allVars order hybs) shocks).map fun y => decide (¬ (inq tol m hyb y ∨ inp tol m hyb y))) with
        | .error e => .error e
        | .ok mi => .ok ⟨fwd, bwd, hy, mi⟩

/-- The same with the argument `verbose`: the messages are written before the labels are returned (l.254-310 come before l.313). -/
noncomputable def genVerbose (vars : Option (List String)) (order : List ν) (hybs : List H) (shocks : List ε) (hxOnly : Bool) (verbose : Nat) :
    Except PyErr (List (ν ⊕ H)) :=
  if verbose > 1 then
    match genMsgs tol m hyb vars order hybs shocks with
    | .error e => .error e
    | .ok _ => genMasked tol m hyb order hybs shocks hxOnly
  else genMasked tol m hyb order hybs shocks hxOnly

end
end Pydsge.Masked
