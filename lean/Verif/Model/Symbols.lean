import Verif.Model.Py

/-!
# Model symbols (symbols.py)

A `TSymbol` is a sympy symbol with a name and a date; `Variable` and `Shock` are its two classes. The sympy machinery
(assumptions, caches) is not modelled: two symbols are equal iff class and `_hashable_content` agree.
-/

set_option autoImplicit false

namespace Pydsge

/-- symbols.py:82 `Variable`, symbols.py:129 `Shock`. -/
inductive Kind
  | variable
  | shock
  deriving DecidableEq, Repr, Inhabited

/-- symbols.py:24-79: class, name, `date` and `exp_date`. -/
structure TSym where
  kind : Kind
  name : String
  date : Int := 0
  expDate : Int := 0
  deriving DecidableEq, Repr, Inhabited

namespace TSym

/-- symbols.py:26-45 `__init__` without `exp_date`; the date defaults to 0. -/
def mk' (kind : Kind) (name : String) (date : Int := 0) : TSym := { kind := kind, name := name, date := date }

/-- symbols.py:47-51 `__call__`: a new symbol of the same class; `exp_date` is not passed on. -/
def call (s : TSym) (lead : Int) : TSym := mk' s.kind s.name (s.date + lead)

/-- symbols.py:61-62 `_hashable_content`. -/
def content (s : TSym) : String × String × String := (s.name, toString s.date, toString s.expDate)

/-- `Basic.__eq__` of sympy: same class and same content. -/
def pyEq (s t : TSym) : Bool := s.kind == t.kind && s.content == t.content

/-- symbols.py:74-79: `__str__` of `TSymbol`, and of `Variable` (l.90-97) when `exp_date = 0`. -/
def str0 (s : TSym) : String := if s.date = 0 then s.name else s.name ++ "(" ++ toString s.date ++ ")"

/-- symbols.py:90-97, 74-79. -/
def str (s : TSym) : String :=
  match s.kind with
  | .shock => s.str0
  | .variable => if s.expDate = 0 then s.str0 else "E[" ++ toString s.expDate ++ "]" ++ s.str0

end TSym

/-- A Python expression of the form `name` or `name(int)`. -/
def readCall (txt : String) : Option (String × Option Int) :=
  match txt.toList.takeWhile (· != '('), txt.toList.dropWhile (· != '(') with
  | n, [] => some (String.ofList n, none)
  | n, _ :: r =>
    match r.reverse with
    | ')' :: d => (String.ofList d.reverse).toInt?.map (fun i => (String.ofList n, some i))
    | _ => none

/-- parser.py:687-690, 768-771: `eval(txt, context)` for such an expression, where `context` maps names to symbols. -/
def evalCall (context : String → Option TSym) (txt : String) : Option TSym :=
  match readCall txt with
  | none => none
  | some (n, none) => context n
  | some (n, some i) => (context n).map (fun s => s.call i)

end Pydsge
