import Verif.Model.Pipeline

/-!
# What a model says about itself (parser.py:114-161, 201-215)
-/

set_option autoImplicit false

namespace Pydsge.Book

open Parser Pipeline

variable {K : Type}

/-- parser.py:117-138: one list of symbols over all equations; `uni a b` is `list(set(a).union(b))`, in whatever order. -/
def collect (uni : List TSym → List TSym → List TSym) (p : TSym → Bool) (eqs : List (Eqn K)) : List TSym :=
  eqs.foldl (fun acc e => uni acc (e.syms.filter p)) []

/-- The entries that `DSGE.__init__` adds to the model. -/
structure Info (K : Type) where
  fvars : List TSym
  lvars : List TSym
  nstate : Nat
  fvarsLagged : List String
  reErrors : List TSym
  reErrorsEq : List (Eqn K)

/-- parser.py:143: the parameter that stands for the expectation of the period before. -/
def laggedName (f : TSym) : String := "__LAGGED_" ++ f.name

/-- parser.py:145. -/
def etaSym (f : TSym) : TSym := TSym.mk' .shock ("eta_" ++ f.name)

/-- parser.py:114-161 `DSGE.__init__`, for the variables and equations that the parser hands over. -/
def init (uni : List TSym → List TSym → List TSym) (st : PState K) [Zero K] : Info K :=
  let fvars := collect uni (fun s => 0 < s.date) st.eqs
  let lvars := collect uni (fun s => s.date < 0) st.eqs
  { fvars := fvars
    lvars := lvars
    nstate := st.vars.length + fvars.length
    fvarsLagged := fvars.map laggedName
    reErrors := fvars.map etaSym
    reErrorsEq := fvars.map fun f => ⟨.sub (.sub (.sym (f.call (-1))) (.par (laggedName f))) (.sym (etaSym f)), .num 0⟩ }

/-- parser.py:201-203 `neq`. -/
def neq (st : PState K) : Nat := st.eqs.length

/-- parser.py:209-211 `neta`. -/
def neta (B : Info K) : Nat := B.fvars.length

/-- parser.py:205-207 `neq_fort`. -/
def neqFort (st : PState K) (B : Info K) : Nat := neq st + neta B

/-- parser.py:213-215 `nobs`: the declared observables, one per measurement equation. -/
def nobs (src : Source K) : Nat := src.obs.length

end Pydsge.Book
