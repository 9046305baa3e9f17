import Verif.Model.Parser

/-!
# Covariances and measurement errors (parser.py:666, 730-733, 874-916)
-/

set_option autoImplicit false

namespace Pydsge.Cov

variable {V : Type}

/-- `str.strip` (blanks and the other white space of ASCII). -/
def isBlank (c : Char) : Bool := c = ' ' ∨ c = '\t' ∨ c = '\n' ∨ c = '\r' ∨ c = Char.ofNat 11 ∨ c = Char.ofNat 12

def strip (cs : List Char) : List Char := ((cs.dropWhile isBlank).reverse.dropWhile isBlank).reverse

/-- parser.py:883-890, 903-910: `key.split(",")`, and the names without blanks. -/
def splitKey (key : String) : List String := (key.toList.splitOn ',').map (fun cs => String.ofList (strip cs))

/-- parser.py:885-886, 905-906: a single name stands for the pair of it with itself. -/
def pairOf : List String → List String
  | [a] => [a, a]
  | l => l

/-- What the YAML file has as value of an entry: a number, or text with its value (or error) as an expression. -/
inductive YVal (V : Type)
  | num (v : V)
  | text (r : Except PyErr V)

/-- parser.py:895 `eval(str(value), context)`. -/
def YVal.evalStr : YVal V → Except PyErr V
  | .num v => .ok v
  | .text r => r

/-- parser.py:915 `eval(value, context)`: `eval` wants text. -/
def YVal.evalRaw : YVal V → Except PyErr V
  | .num _ => .error .typeError
  | .text r => r

/-- An entry: its key and what `eval` makes of its value. -/
abbrev Entry (V : Type) := String × Except PyErr V

/-- `list.index`. -/
def pyIndex (l : List String) (n : String) : Except PyErr Nat :=
  match l.findIdx? (fun m => m = n) with
  | some i => .ok i
  | none => .error .valueError

/-- One element of a matrix of size `n`, as sympy sets it. -/
def setAt (n : Nat) (M : Nat → Nat → V) (i j : Nat) (v : V) : Except PyErr (Nat → Nat → V) :=
  if i < n ∧ j < n then .ok (fun a b => if a = i ∧ b = j then v else M a b) else .error .indexError

/-- parser.py:882-896, 902-916: one entry; keys with more than two names are skipped. -/
def setEntry (n : Nat) (order : List String) (M : Nat → Nat → V) (e : Entry V) : Except PyErr (Nat → Nat → V) :=
  match pairOf (splitKey e.1) with
  | [a, b] =>
    match pyIndex order a with
    | .error err => .error err
    | .ok i =>
      match pyIndex order b with
      | .error err => .error err
      | .ok j =>
        match e.2 with
        | .error err => .error err
        | .ok v =>
          match setAt n M i j v with
          | .error err => .error err
          | .ok M' => setAt n M' j i (M' i j)
  | _ => .ok M

def fill (n : Nat) (order : List String) : List (Entry V) → (Nat → Nat → V) → Except PyErr (Nat → Nat → V)
  | [], M => .ok M
  | e :: r, M =>
    match setEntry n order M e with
    | .error err => .error err
    | .ok M' => fill n order r M'

variable [Zero V]

/-- parser.py:666, 874-896: `QQ`; the keys of the section are also the list of shocks. -/
def getQQ (cov : List (String × YVal V)) : Except PyErr (Nat → Nat → V) :=
  fill cov.length (cov.map Prod.fst) (cov.map (fun e => (e.1, e.2.evalStr))) (fun _ _ => 0)

/-- parser.py:730-733, 898-916: `HH`, of the size of the observables; `decl` are the declared measurement errors, `cal` the section of the
calibration (if it is missing, `KeyError`). -/
def getHH (nobs : Nat) (decl : Option (List String)) (cal : Option (List (String × YVal V))) : Except PyErr (Nat → Nat → V) :=
  match decl with
  | none => .ok (fun _ _ => 0)
  | some order =>
    match cal with
    | none => .error .keyError
    | some es => fill nobs order (es.map (fun e => (e.1, e.2.evalRaw))) (fun _ _ => 0)

/-- parser.py:666, 796-810, 872-896: the part of `parse` that treats the shocks: the equations are checked first. -/
def parseCov {K : Type} (ord : List (TSym × TSym) → List (TSym × TSym)) (vars : List String) (eqs : List (Eqn K))
    (cov : List (String × YVal V)) : Except PyErr (Parser.PState K × (Nat → Nat → V)) :=
  match Parser.parseEqs ord vars (cov.map Prod.fst) eqs with
  | .error e => .error e
  | .ok st =>
    match getQQ cov with
    | .error e => .error e
    | .ok Q => .ok (st, Q)

end Pydsge.Cov
