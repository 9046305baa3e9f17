import Verif.Model.Estim
import Verif.Model.ParDict

/-!
# The report of a failing likelihood (estimation.py:175-183)

`llike` and `lprob` with the argument `verbose`. Texts that are only printed are left out, except for what has to be computed for them: with `verbose > 1`
the handler for exceptions calls `get_par` and `box_check`.
-/

set_option autoImplicit false

namespace Pydsge.Estim

open Pydsge.Params

variable {K PP VV HX LS TT QQ RS : Type} [Field K] [LinearOrder K]

/-- What else the report needs: `np.round(·, 5)`, random draws of `get_par`, entries of `fdict`. -/
structure Report (K : Type) where
  rnd : K → K
  dr : Draws K
  modeX : Option (List K)
  initValue : Option (List (Option K))
  ndim : Option Nat
  priorNames : List String
  lb : List K
  ub : List K

/-- `[*pardict.values()]`, in the order in which the keys were first put in; `keys` are the keys as they come. Rows of arrays cannot be compared with bounds. -/
def dictValues (keys : List String) (d : String → Option (Entry K)) : Except PyErr (List K) :=
  (keys.eraseDups.filterMap d).mapM fun
    | .val x => .ok x
    | .row _ => .error .valueError

/-- estimation.py:180-183. -/
def reportFailure (U : Setup K PP VV HX LS TT QQ RS) (X : Report K) (w : World K PP VV HX LS TT QQ RS) :
    World K PP VV HX LS TT QQ RS × Except PyErr (List (BoxMsg K)) :=
  match getDict X.rnd U.S U.D X.dr ⟨none, none, false⟩ ⟨w.a, X.modeX, X.initValue, X.ndim⟩ .none none false 1 with
  | (ob, .error e) => ({ w with a := ob.a }, .error e)
  | (ob, .ok (.one d)) =>
    let w := { w with a := ob.a }
    match U.D.prior with
    | none => (w, .error .typeError)
    | some p =>
      match fancyGet U.D.names p.arg with
      | .error e => (w, .error e)
      | .ok keys =>
        match dictValues keys d with
        | .error e => (w, .error e)
        | .ok vals => (w, boxCheck X.priorNames X.lb X.ub (w.a.par.getD []) (some vals))
  | (ob, .ok _) => ({ w with a := ob.a }, .error .attributeError) -- no dictionary

/-- estimation.py:150-186 with `verbose`; an exception of the report leaves the function, and the generator is not restored then. -/
def llikeV (U : Setup K PP VV HX LS TT QQ RS) (X : Report K) (w : World K PP VV HX LS TT QQ RS) (par : List K) (verbose : Nat) :
    World K PP VV HX LS TT QQ RS × Except PyErr (XNum K) :=
  match llikeBody U w par with
  | (w', .ok ll) => ({ w' with rng := w.rng }, .ok ll)
  | (w', .error .keyboardInterrupt) => (w', .error .keyboardInterrupt)
  | (w', .error _) =>
    if verbose > 1 then
      match reportFailure U X w' with
      | (w'', .error e) => (w'', .error e)
      | (w'', .ok _) => ({ w'' with rng := w.rng }, .ok .ninf)
    else ({ w' with rng := w.rng }, .ok .ninf)

/-- estimation.py:190-223 with `verbose`. -/
def lprobV (U : Setup K PP VV HX LS TT QQ RS) (X : Report K) (w : World K PP VV HX LS TT QQ RS) (par : List K) (temp : K) (trans : Option Bool)
    (verbose : Nat) : World K PP VV HX LS TT QQ RS × Except PyErr (XNum K) :=
  let par := if trans.getD U.transform then U.bptrans par else par
  let lp := U.lprior par
  if lp.isInf then (w, .ok lp)
  else
    match (if temp ≠ 0 then
        match llikeV U X w par verbose with
        | (w', .ok l) => (w', .ok (l.smul temp))
        | (w', .error e) => (w', .error e)
      else (w, .ok (.fin 0)) : World K PP VV HX LS TT QQ RS × Except PyErr (XNum K)) with
    | (w', .error e) => (w', .error e)
    | (w', .ok ll) => if ll.isInf then (w', .ok ll) else (w', .ok (ll.add lp))

end Pydsge.Estim
