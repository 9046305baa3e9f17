import Verif.Model.Py

/-!
# What `irfs` and `simulate` return (tools.py:331-338, 354, 458-462, 472, 485)

Arrays of numbers are lists of rows. `map2arr` turns a list of tuples into a tuple of arrays, in the order of the list.
-/

set_option autoImplicit false

namespace Pydsge.Pack

variable {X β φ : Type}

/-- tools.py:331: what the runner of `irfs` returns for one set of parameters (without the flag of multiplicity, which is only printed). -/
structure Run (X β φ : Type) where
  X : X
  L : List β
  K : List β
  flag : φ

/-- `np.vstack((L, K))` of two arrays with two axes (tools.py:354). -/
def vstack (L K : List (List β)) : List (List β) := L ++ K

/-- tools.py:337-338, 354: one set of parameters; `np.vstack` makes rows of vectors. -/
def irfsOne (r : Run X β φ) : X × List (List β) × φ := (r.X, vstack [r.L] [r.K], r.flag)

/-- tools.py:333-335, 354: several sets of parameters. -/
def irfsMany (rs : List (Run X β φ)) : List X × List (List β) × List φ :=
  (rs.map Run.X, vstack (rs.map Run.L) (rs.map Run.K), rs.map Run.flag)

/-- tools.py:458-462: what the runner of `simulate` returns; `LK` has the rows `L` and `K`. -/
def simRun (r : Run X β φ) : X × List (List β) × φ := (r.X, [r.L, r.K], r.flag)

/-- `LK[..., i, :]`. -/
def rowOfEach (i : Nat) (LK : List (List (List β))) : Except PyErr (List (List β)) :=
  LK.mapM fun m => match m[i]? with
    | some r => .ok r
    | none => .error .indexError

/-- tools.py:472, 485. -/
def simReturn (rs : List (Run X β φ)) : Except PyErr (List X × (List (List β) × List (List β)) × List φ) :=
  let res := rs.map simRun
  match rowOfEach 0 (res.map fun r => r.2.1) with
  | .error e => .error e
  | .ok L =>
    match rowOfEach 1 (res.map fun r => r.2.1) with
    | .error e => .error e
    | .ok K => .ok (res.map fun r => r.1, (L, K), res.map fun r => r.2.2)

/-- `L, K = a`: as documented and as used in the examples. -/
def unpack2 {α : Type} : List α → Except PyErr (α × α)
  | [a, b] => .ok (a, b)
  | _ => .error .valueError

end Pydsge.Pack
