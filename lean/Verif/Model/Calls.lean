import Verif.Model.Params
import Verif.Model.Tools

/-!
# How `irfs` and `simulate` call `set_par` (pydsge/tools.py:199-248, 327, 333-338, 426-441)

`pelf` is the unpickled copy of `self`. Names of variables are lists (`VV`).
-/

set_option autoImplicit false

namespace Pydsge.Calls

open Pydsge.Params

variable {K PP HX LS TT QQ : Type} [Field K] [LinearOrder K]

/-- `self` with names of variables. -/
abbrev Ob (K PP HX LS TT QQ : Type) := Obj K PP (List String) HX LS TT QQ

/-- mpile.py:357-358: `set_par(par, return_vv=True, **args)` returns the parameters and `self.vv`. -/
def setParVV (S : Solver K PP (List String) HX LS TT QQ) (D : Decl K) (dr : Draws K) (g : GenArgs) (sq : QQ → QQ) (pelf : Ob K PP HX LS TT QQ)
    (par : List K) : Ob K PP HX LS TT QQ × Except PyErr (ParVal K QQ × Option (List String)) :=
  match setPar S D dr g sq pelf (.vec par) none with
  | (pelf, .error e) => (pelf, .error e)
  | (pelf, .ok v) => (pelf, .ok (v, pelf.a.vv))

/-- tools.py:436-441: `simulate` sets the parameters of one sample and checks the order of variables. -/
def simGuard (S : Solver K PP (List String) HX LS TT QQ) (D : Decl K) (dr : Draws K) (g : GenArgs) (sq : QQ → QQ) (pelf : Ob K PP HX LS TT QQ)
    (par : List K) : Ob K PP HX LS TT QQ × Except PyErr Unit :=
  match setParVV S D dr g sq pelf par with
  | (pelf, .error e) => (pelf, .error e)
  | (pelf, .ok (_, vv)) => if vv = pelf.a.vv then (pelf, .ok ()) else (pelf, .error .exception)

/-- What `irfs` has before the loop over periods: `self`, the bounds that `set_k` is compared with, and the model that is simulated (`none`: a
result full of NaN). -/
structure Prepared (K PP HX LS TT QQ : Type) where
  self : Ob K PP HX LS TT QQ
  lks : Int × Int
  pelf : Option (Ob K PP HX LS TT QQ)

/-- tools.py:208-209, 231-248, 333-338, for one parameter vector or none. -/
def irfsPrepare (S : Solver K PP (List String) HX LS TT QQ) (D : Decl K) (dr : Draws K) (g : GenArgs) (sq : QQ → QQ) (self : Ob K PP HX LS TT QQ)
    (pars : Option (List K)) : Except PyErr (Prepared K PP HX LS TT QQ) :=
  -- l.208-209
  let (a, err) := match self.a.par with
    | some _ => (self.a, none)
    | none => genSysYaml S D g self.a none
  let self := { self with a := a }
  match err with
  | some e => .error e
  | none =>
    -- l.219
    match self.a.lks with
    | none => .error .attributeError
    | some lks =>
      -- l.241-248
      match pars with
      | none => .ok ⟨self, lks, some self⟩
      | some v =>
        if v.any (fun x => decide (x ≠ 0)) then
          match setPar S D dr g sq self (.vec v) none with
          | (_, .error .valueError) => .ok ⟨self, lks, none⟩
          | (_, .error e) => .error e
          | (pelf, .ok _) => .ok ⟨self, lks, some pelf⟩
        else .ok ⟨self, lks, some self⟩

/-- tools.py:327, 338: the row of one period, `X[t, :] = st_vec` (in the order of `pelf.vv`), with the columns `self.vv`. -/
def frameRow (columns : List String) (stVec : List K) : Except PyErr (List (String × K)) :=
  if stVec.length = columns.length then .ok (columns.zip stVec) else .error .valueError

end Pydsge.Calls
