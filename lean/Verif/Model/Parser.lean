import Verif.Model.Expr

/-!
# Equations: leads, lags and matrices (parser.py)

`ord` is the order in which sympy's `subs` works through the keys of a dictionary.
-/

set_option autoImplicit false

namespace Pydsge.Parser

variable {K : Type}

abbrev vsym (n : String) (d : Int := 0) : TSym := TSym.mk' .variable n d
abbrev ssym (n : String) (d : Int := 0) : TSym := TSym.mk' .shock n d

/-- `var_ordering` (names) and `equations`. -/
structure PState (K : Type) where
  vars : List String
  eqs : List (Eqn K)
  deriving DecidableEq

/-- parser.py:799, 803-808, 825, 831-836: the dates with which the symbol of that class and name occurs in the equations. -/
def dates (k : Kind) (n : String) (eqs : List (Eqn K)) : List Int :=
  ((eqs.flatMap Eqn.syms).filter (fun s => s.kind = k ∧ s.name = n)).map TSym.date

/-- `min([...])`; the value for the empty list is never used, see `allOccur`. -/
def minDate (l : List Int) : Int := l.foldl min (l.headD 0)

def maxDate (l : List Int) : Int := l.foldl max (l.headD 0)

/-- parser.py:801-810, 829-838: the maximum of an empty list raises, which is turned into a `SyntaxError`. -/
def allOccur (k : Kind) (ns : List String) (eqs : List (Eqn K)) : Except PyErr Unit :=
  if ns.all (fun n => !(dates k n eqs).isEmpty) then .ok () else .error .syntaxError

/-- parser.py:815: the variable that stands for a lagged shock. -/
def varOf (s : String) : String := s ++ "_VAR"

/-- parser.py:819-822: the substitutions for one shock with lags up to `n`. -/
def shockDict (s : String) (n : Nat) : List (TSym × TSym) :=
  (List.range n).map (fun (i : Nat) => (ssym s (-((i : Int) + 1)), vsym (varOf s) (-((i : Int) + 1))))

/-- parser.py:813-823: one shock; `lag` is `max_lag_exo[s]`. -/
def shockStep (ord : List (TSym × TSym) → List (TSym × TSym)) (lag : String → Int) (st : PState K) (s : String) : PState K :=
  if (lag s).natAbs > 0 then
    ⟨st.vars ++ [varOf s],
      (st.eqs ++ [(⟨.sym (vsym (varOf s)), .sym (ssym s)⟩ : Eqn K)]).map (Eqn.subs (ord (shockDict s (lag s).natAbs)))⟩
  else st

/-- parser.py:850: name of the variable for lag `i + 1` (`i ≥ 1`). -/
def lagVar (v : String) (i : Nat) : String := v ++ "_LAG" ++ toString i

/-- parser.py:864. -/
def leadVar (v : String) (i : Nat) : String := v ++ "_LEAD" ++ toString i

/-- parser.py:852-856: what the variable for lag `i + 1` equals. -/
def lagRhs (v : String) (i : Nat) : TSym := if i = 1 then vsym v (-1) else vsym (lagVar v (i - 1)) (-1)

/-- parser.py:847-870: added variables, their equations and the substitutions for one variable, with `n = abs(max_lag_endo[v])`
and `k = abs(max_lead_endo[v])`; `i - 1` runs over `range (n - 1)` shifted by one. -/
def lagNames (v : String) (n : Nat) : List String := (List.range (n - 1)).map (fun j => lagVar v (j + 1))
def leadNames (v : String) (k : Nat) : List String := (List.range (k - 1)).map (fun j => leadVar v (j + 1))

def lagEqs (v : String) (n : Nat) : List (Eqn K) :=
  (List.range (n - 1)).map (fun j => ⟨.sym (vsym (lagVar v (j + 1))), .sym (lagRhs v (j + 1))⟩)

/-- parser.py:866: the right hand side is `v(+1)` for every lead. -/
def leadEqs (v : String) (k : Nat) : List (Eqn K) :=
  (List.range (k - 1)).map (fun j => ⟨.sym (vsym (leadVar v (j + 1))), .sym (vsym v 1)⟩)

/-- parser.py:858, 868. -/
def lagDict (v : String) (n : Nat) : List (TSym × TSym) :=
  (List.range (n - 1)).map (fun (j : Nat) => (vsym v (-((j : Int) + 2)), vsym (lagVar v (j + 1)) (-1)))

def leadDict (v : String) (k : Nat) : List (TSym × TSym) :=
  (List.range (k - 1)).map (fun (j : Nat) => (vsym v ((j : Int) + 2), vsym (leadVar v (j + 1)) 1))

/-- parser.py:796-823: the system after the treatment of the shocks. -/
def shockStage (ord : List (TSym × TSym) → List (TSym × TSym)) (vars shocks : List String) (eqs : List (Eqn K)) : PState K :=
  shocks.foldl (shockStep ord (fun s => minDate (dates .shock s eqs))) ⟨vars, eqs⟩

/-- parser.py:825-872. -/
def endoStage (ord : List (TSym × TSym) → List (TSym × TSym)) (st : PState K) : PState K :=
  let n : String → Nat := fun v => (minDate (dates .variable v st.eqs)).natAbs
  let k : String → Nat := fun v => (maxDate (dates .variable v st.eqs)).natAbs
  let names := st.vars.flatMap (fun v => lagNames v (n v) ++ leadNames v (k v))
  let news := st.vars.flatMap (fun v => lagEqs v (n v) ++ leadEqs v (k v))
  let dict := st.vars.flatMap (fun v => lagDict v (n v) ++ leadDict v (k v))
  ⟨st.vars ++ names, (st.eqs ++ news).map (Eqn.subs (ord dict))⟩

/-- parser.py:755-759, 796-872: from the declared equations to `model["equations"]`. -/
def parseEqs (ord : List (TSym × TSym) → List (TSym × TSym)) (vars shocks : List String) (eqs : List (Eqn K)) :
    Except PyErr (PState K) :=
  if eqs.length + 1 ≠ vars.length then .error .syntaxError
  else
    match allOccur .shock shocks eqs with
    | .error e => .error e
    | .ok () =>
      match allOccur .variable (shockStage ord vars shocks eqs).vars (shockStage ord vars shocks eqs).eqs with
      | .error e => .error e
      | .ok () => .ok (endoStage ord (shockStage ord vars shocks eqs))

/-- parser.py:232-242: a variable that is listed twice is kept once. -/
def unique (vars : List String) : List String := vars.foldl (fun acc v => if v ∈ acc then acc else acc ++ [v]) []

/-- The matrices of one model, with rows numbered as the equations; columns are named by the variable or the shock (in the code:
its position in `var_ordering` or `shk_ordering`). -/
structure Mats (K : Type) where
  vars : List String
  AA : Nat → String → K
  BB : Nat → String → K
  CC : Nat → String → K
  PSI : Nat → String → K

/-- parser.py:313-331: `list.index` of the symbols of one equation, and the bounds of the row. -/
def rowCheck (rows : Nat) (vars shocks : List String) (i : Nat) (e : Eqn K) : Except PyErr Unit :=
  if e.syms.any (fun s =>
      s.kind = .variable ∧ 0 < s.date ∧ s ∉ vars.map (fun n => vsym n 1) ∨
      s.kind = .variable ∧ s.date = 0 ∧ s ∉ vars.map (fun n => vsym n 0) ∨
      s.kind = .variable ∧ s.date < 0 ∧ s ∉ vars.map (fun n => vsym n (-1)) ∨
      s.kind = .shock ∧ s ∉ shocks.map (fun n => ssym n)) then .error .valueError
  else if e.syms ≠ [] ∧ rows ≤ i then .error .indexError
  else .ok ()

/-- parser.py:310-333, over all equations. -/
def checkRows (rows : Nat) (vars shocks : List String) : Nat → List (Eqn K) → Except PyErr Unit
  | _, [] => .ok ()
  | i, e :: es =>
    match rowCheck rows vars shocks i e with
    | .error err => .error err
    | .ok () => checkRows rows vars shocks (i + 1) es

section
variable [Field K]

/-- parser.py:316, 321, 326, 331: `e.diff(s).subs(subs_dict)`, evaluated at the parameters; the derivative is nonzero only for symbols
that occur. A derivative that still contains a shock would raise when evaluated; here it is evaluated at zero. -/
def coef (I : Interp K) (e : Expr K) (s : TSym) : K :=
  if s ∈ e.syms then (e.diff s).eval I (fun _ => 0) else 0

/-- parser.py:228-333: the matrices of the model equations; `con` tells whether there is a constraint. -/
def getMatrices (I : Interp K) (con : Bool) (vars shocks : List String) (eqs : List (Eqn K)) : Except PyErr (Mats K) :=
  let nvars := unique vars
  let rows := if con then nvars.length - 1 else nvars.length
  match checkRows rows nvars shocks 0 eqs with
  | .error e => .error e
  | .ok () =>
    .ok
      { vars := nvars
        AA := fun i v => match eqs[i]? with | some e => coef I e.setEqZero (vsym v 1) | none => 0
        BB := fun i v => match eqs[i]? with | some e => coef I e.setEqZero (vsym v 0) | none => 0
        CC := fun i v => match eqs[i]? with | some e => coef I e.setEqZero (vsym v (-1)) | none => 0
        PSI := fun i s => match eqs[i]? with | some e => -coef I e.setEqZero (ssym s) | none => 0 }

/-- parser.py:279-302: the row of the constraint: coefficients of current and lagged variables and of shocks. -/
structure ConRow (K : Type) where
  bb : String → K
  bbLag : String → K
  bbPSI : String → K

def getConstraint (I : Interp K) (vars shocks : List String) (ce : Eqn K) : Except PyErr (ConRow K) :=
  if ce.syms.any (fun s => s.kind = .variable ∧ 0 < s.date) then .error .notImplemented
  else if ce.syms.any (fun s =>
      s.kind = .variable ∧ s ∉ vars.map (fun n => vsym n 0) ++ vars.map (fun n => vsym n (-1)) ∨
      s.kind = .shock ∧ s ∉ shocks.map (fun n => ssym n)) then .error .valueError
  else
    .ok
      { bb := fun v => -coef I ce.setEqZero (vsym v 0)
        bbLag := fun v => -coef I ce.setEqZero (vsym v (-1))
        bbPSI := fun s => -coef I ce.setEqZero (ssym s) }

/-- A text without any name: `eval` (parser.py:921) makes it a number of Python. -/
def plainNum : Expr K → Bool
  | .num _ => true
  | .par _ => false
  | .sym _ => false
  | .add a b => plainNum a && plainNum b
  | .sub a b => plainNum a && plainNum b
  | .mul a b => plainNum a && plainNum b
  | .div a b => plainNum a && plainNum b
  | .neg a => plainNum a
  | .pow a _ => plainNum a
  | .app _ a b => plainNum a && plainNum b

/-- parser.py:335-352 and the evaluation of the compiled `ZZ1` (l.436): one observable. A number of Python has no method `subs` (l.341).
Current variables enter `ZZ0`; leads fail in `vlist.index` or as a column beyond the matrix; lags are dropped; what is left in `ZZ1` besides
parameters (shocks, and variables more than one period away) raises a `NameError` when the compiled function is called. -/
def getObs (I : Interp K) (vars fvars : List String) (oe : Expr K) : Except PyErr ((String → K) × K) :=
  if plainNum oe then .error .attributeError
  else if oe.syms.any (fun s => s.kind = .variable ∧ 0 ≤ s.date ∧ s ∉ vars.map (fun n => vsym n 0)
      ∧ ¬ (s.date = 1 ∧ s.name ∈ fvars)) then .error .valueError
  else if oe.syms.any (fun s => s.kind = .variable ∧ 0 < s.date) then .error .indexError
  else if oe.syms.any (fun s => s.kind = .shock ∨ s ∉ vars.map (fun n => vsym n 0) ++ vars.map (fun n => vsym n (-1))) then
    .error .nameError
  else .ok (fun v => coef I oe (vsym v 0), oe.eval I (fun _ => 0))

end
end Pydsge.Parser
