import Verif.Model.Params

/-!
# Posterior density: `llike` and `lprob` (pydsge/estimation.py:150-223)

The filter, the prior and numpy's random generator are abstract. Timing and printing are left out (for the extra
output of `llike` with `verbose > 1` see `Model/VerbLike.lean`).
-/

set_option autoImplicit false

namespace Pydsge.Estim

open Pydsge.Params

variable {K PP VV HX LS TT QQ RS : Type}

/-- Floating point numbers: finite, infinite or NaN. -/
inductive XNum (K : Type)
  | fin (x : K)
  | pinf
  | ninf
  | nan
  deriving DecidableEq, Repr

namespace XNum

/-- `np.isinf`. -/
def isInf : XNum K → Bool
  | .pinf => true
  | .ninf => true
  | _ => false

section
variable [Field K] [LinearOrder K]

/-- `a * t` for a finite `t`. -/
def smul (a : XNum K) (t : K) : XNum K :=
  match a with
  | .fin x => .fin (x * t)
  | .pinf => if 0 < t then .pinf else if t < 0 then .ninf else .nan
  | .ninf => if 0 < t then .ninf else if t < 0 then .pinf else .nan
  | .nan => .nan

def add : XNum K → XNum K → XNum K
  | .nan, _ => .nan
  | _, .nan => .nan
  | .fin a, .fin b => .fin (a + b)
  | .fin _, b => b
  | a, .fin _ => a
  | .pinf, .pinf => .pinf
  | .ninf, .ninf => .ninf
  | _, _ => .nan

end
end XNum

/-- What `prep_estim` fixes for the closures `llike` and `lprob`. -/
structure Setup (K PP VV HX LS TT QQ RS : Type) where
  S : Solver K PP VV HX LS TT QQ
  D : Decl K
  /-- `prior_arg` -/
  arg : List Nat
  lMax : Int
  kMax : Int
  /-- `Q -> Q @ Q` (l.166) -/
  sq : QQ → QQ
  /-- `np.random.seed(seed)` -/
  seedState : RS
  /-- `batch_filter` and the likelihood of `run_filter` (filtering.py:141-307): uses the solution, the filter and the generator; may raise. -/
  filter : Attrs K PP VV HX LS TT QQ → RS → RS × Except PyErr (XNum K)
  lprior : List K → XNum K
  bptrans : List K → List K
  /-- default of `use_prior_transform` -/
  transform : Bool

/-- What a call can change: the generator, `self` and the array `par_fix` of the closure. -/
structure World (K PP VV HX LS TT QQ RS : Type) where
  rng : RS
  a : Attrs K PP VV HX LS TT QQ
  parFix : List K

section
variable [Field K] [LinearOrder K]

/-- filtering.py:136-137, 292-295 `get_ll`: NaN becomes minus infinity. -/
def getLL (U : Setup K PP VV HX LS TT QQ RS) (a : Attrs K PP VV HX LS TT QQ) (r : RS) : RS × Except PyErr (XNum K) :=
  match U.filter a r with
  | (r, .error e) => (r, .error e)
  | (r, .ok .nan) => (r, .ok .ninf)
  | (r, .ok x) => (r, .ok x)

/-- estimation.py:155-168: what is tried. -/
def llikeBody (U : Setup K PP VV HX LS TT QQ RS) (w : World K PP VV HX LS TT QQ RS) (par : List K) :
    World K PP VV HX LS TT QQ RS × Except PyErr (XNum K) :=
  let w := { w with rng := U.seedState }
  match fancySet w.parFix U.arg par with
  | .error e => (w, .error e)
  | .ok v =>
    let w := { w with parFix := v }
    match genSysYaml U.S U.D ⟨some U.lMax, some U.kMax, false⟩ w.a (some v) with
    | (a, some e) => ({ w with a := a }, .error e)
    | (a, none) =>
      let a := match a.ppar with
        | some pp => { a with filterQ := some (U.sq (U.S.cov pp)) }
        | none => a
      match getLL U a w.rng with
      | (r, res) => (⟨r, a, w.parFix⟩, res)

/-- estimation.py:150-186. -/
def llike (U : Setup K PP VV HX LS TT QQ RS) (w : World K PP VV HX LS TT QQ RS) (par : List K) :
    World K PP VV HX LS TT QQ RS × Except PyErr (XNum K) :=
  match llikeBody U w par with
  | (w', .ok ll) => ({ w' with rng := w.rng }, .ok ll)
  | (w', .error .keyboardInterrupt) => (w', .error .keyboardInterrupt)
  | (w', .error _) => ({ w' with rng := w.rng }, .ok .ninf)

/-- estimation.py:190-223; `trans` is the argument `use_prior_transform`. -/
def lprob (U : Setup K PP VV HX LS TT QQ RS) (w : World K PP VV HX LS TT QQ RS) (par : List K) (temp : K) (trans : Option Bool) :
    World K PP VV HX LS TT QQ RS × Except PyErr (XNum K) :=
  let par := if trans.getD U.transform then U.bptrans par else par
  let lp := U.lprior par
  if lp.isInf then (w, .ok lp)
  else
    match (if temp ≠ 0 then
        match llike U w par with
        | (w', .ok l) => (w', .ok (l.smul temp))
        | (w', .error e) => (w', .error e)
      else (w, .ok (.fin 0)) : World K PP VV HX LS TT QQ RS × Except PyErr (XNum K)) with
    | (w', .error e) => (w', .error e)
    | (w', .ok ll) => if ll.isInf then (w', .ok ll) else (w', .ok (ll.add lp))

/-- A call of `lprob`. -/
structure Call (K : Type) where
  par : List K
  temp : K
  trans : Option Bool

/-- The state after a sequence of calls (also if some of them were interrupted). -/
def afterCalls (U : Setup K PP VV HX LS TT QQ RS) (w : World K PP VV HX LS TT QQ RS) (l : List (Call K)) : World K PP VV HX LS TT QQ RS :=
  l.foldl (fun w c => (lprob U w c.par c.temp c.trans).1) w

end
end Pydsge.Estim
