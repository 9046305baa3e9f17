import Mathlib.Data.List.Basic
import Verif.Model.Params

/-!
# From the sections of a model file to the declarations of the model (parser.py:225-226, 666, 679, 682-685, 923-969)

What yaml reads from a mapping is a Python dictionary. Parameters are calibrated with numbers; calibrations that are not numbers are left out.
-/

set_option autoImplicit false

namespace Pydsge.Assemble

open Pydsge.Params

variable {K α : Type}

/-- `d[key] = value`: a new key goes to the end, a known one keeps its place. -/
def dictSet : List (String × α) → String × α → List (String × α)
  | [], e => [e]
  | (k, v) :: r, e => if k = e.1 then (k, e.2) :: r else (k, v) :: dictSet r e

/-- What `yaml.safe_load` makes of the lines `key: value` of a mapping (parser.py:660): they are assigned one after the other. -/
def mapping (lines : List (String × α)) : List (String × α) := lines.foldl dictSet []

/-- A section of the file. -/
inductive Sec (α : Type)
  | missing
  | empty
  | given (a : α)

/-- The sections `calibration: parameters`, `calibration: parafunc` (its names) and `estimation: prior`, line by line. -/
structure Sections (K : Type) where
  params : List (String × K)
  parafunc : Sec (List (String × Unit))
  estimation : Sec (Sec (List (String × PriorEntry K)))

/-- `dict[key]`. -/
def dictGet (d : List (String × α)) (n : String) : Except PyErr α :=
  match d.find? (fun e => e.1 = n) with
  | some e => .ok e.2
  | none => .error .keyError

/-- parser.py:225-226 `p0`, and l.959 `par_fix`. -/
def p0 (calibration : List (String × K)) (names : List String) : Except PyErr (List K) := names.mapM (dictGet calibration)

/-- `list.index`. -/
def index (l : List String) (n : String) : Except PyErr Nat := if n ∈ l then .ok (l.idxOf n) else .error .valueError

/-- parser.py:962-969: `prior`, `prior_arg`, `prior_names`; only a `KeyError` means that there are no priors. An empty section is `None`, which
has neither entries (`TypeError`) nor keys (`AttributeError`). -/
def readPrior (pNames : List String) : Sec (Sec (List (String × PriorEntry K))) → Except PyErr (Option (Prior K))
  | .missing => .ok none
  | .empty => .error .typeError
  | .given .missing => .ok none
  | .given .empty => .error .attributeError
  | .given (.given lines) =>
    let prior := mapping lines
    match (prior.map Prod.fst).mapM (index pNames) with
    | .error e => .error e
    | .ok arg => .ok (some ⟨prior.map Prod.fst, arg, prior.map Prod.snd⟩)

/-- parser.py:682-685: the names of the parameter functions; `in` on an empty section is true, and then `None` cannot be iterated over. -/
def readParafunc : Sec (List (String × Unit)) → Except PyErr (List String)
  | .missing => .ok []
  | .empty => .error .typeError
  | .given l => .ok ((mapping l).map Prod.fst)

/-- parser.py:666, 679, 682-685, 923, 959-969; `pf` is what becomes of the parameter functions. -/
def readDecl (s : Sections K) (pf : List K → List K) : Except PyErr (Decl K) :=
  let calibration := mapping s.params
  let names := calibration.map Prod.fst
  match readParafunc s.parafunc with
  | .error e => .error e
  | .ok pfNames =>
    match p0 calibration names with
    | .error e => .error e
    | .ok parFix =>
      match readPrior names s.estimation with
      | .error e => .error e
      | .ok prior => .ok ⟨names, parFix, pfNames, pf, prior⟩

end Pydsge.Assemble
