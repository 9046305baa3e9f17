import Verif.Model.Py

/-!
# Printing an object (utils.py:3-55 `_dumper`, parser.py:166-167 `dump`)
-/

set_option autoImplicit false

namespace Pydsge.Dumper

/-- Keys of a dictionary: `None`, a text, or anything else. -/
inductive Key
  | none
  | text (s : String)
  | other

/-- What `_dumper` tells apart; `eqn` is a sympy `Equality` with its sides as text, `other` is anything else with its `str()`.  Objects that contain
themselves are left out. -/
inductive Val
  | dict (es : List (Key × Val))
  | list (vs : List Val)
  | tuple (vs : List Val)
  | set (vs : List Val)
  | eqn (lhs rhs : String)
  | str (s : String)
  | other (s : String)

def spaces (n : Nat) : String := String.ofList (List.replicate n ' ')

/-- utils.py:24-27: `name_and_eq`. -/
def label (name : Option String) (eq : String) : String :=
  match name with
  | none => ""
  | some n => n ++ " " ++ eq ++ " "

/-- utils.py:32, 24-27: the label of an entry. -/
def Key.label : Key → Option String
  | .none => some (Dumper.label Option.none ":")
  | .text s => some (Dumper.label (some s) ":")
  | .other => Option.none

/-- Lines printed, and the error if there is one. -/
abbrev Out := List String × Option PyErr

/-- One statement after the other. -/
def Out.seq (a b : Out) : Out :=
  match a.2 with
  | some e => (a.1, some e)
  | none => (a.1 ++ b.1, b.2)

mutual
/-- utils.py:24-55; `lab` is `name_and_eq`. -/
def dump (indent cur : Nat) (lab : String) : Val → Out
  | .dict es => Out.seq ([spaces cur ++ lab ++ "{"], none) (Out.seq (dumpEntries indent (cur + indent) es) ([spaces cur ++ "}"], none))
  | .list vs => Out.seq ([spaces cur ++ lab ++ "["], none) (Out.seq (dumpList indent (cur + indent) vs) ([spaces cur ++ "]"], none))
  | .tuple vs => Out.seq ([spaces cur ++ lab ++ "("], none) (Out.seq (dumpList indent (cur + indent) vs) ([spaces cur ++ ")"], none))
  | .set vs => Out.seq ([spaces cur ++ lab ++ "{"], none) (Out.seq (dumpList indent (cur + indent) vs) ([spaces cur ++ "}"], none))
  | .eqn l r => ([spaces cur ++ lab ++ l ++ " = " ++ r], none)
  | .str s => ([spaces cur ++ lab ++ "'" ++ s ++ "'"], none)
  | .other s => ([spaces cur ++ lab ++ s], none)

/-- utils.py:31-32: a key that is neither text nor `None` cannot be joined to a text (l.27). -/
def dumpEntries (indent cur : Nat) : List (Key × Val) → Out
  | [] => ([], none)
  | (k, v) :: es =>
    match k.label with
    | none => ([], some .typeError)
    | some l => Out.seq (dump indent cur l v) (dumpEntries indent cur es)

/-- utils.py:36-37, 41-42, 46-47. -/
def dumpList (indent cur : Nat) : List Val → Out
  | [] => ([], none)
  | v :: vs => Out.seq (dump indent cur "" v) (dumpList indent cur vs)
end

/-- utils.py:3 `_dumper(obj, name, eq, indent, currindent)`. -/
def dumper (v : Val) (name : Option String := none) (eq : String := "=") (indent : Nat := 4) (cur : Nat := 0) : Out :=
  dump indent cur (label name eq) v

end Pydsge.Dumper
