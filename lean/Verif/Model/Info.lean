import Verif.Model.Chains

/-!
# `info` (clsmethods.py:250-283)

The text about a model. Titles and descriptions are texts (see `Model/Persist.lean` for where they come from). The shape of the chain: `d` parameters,
one entry per step, one per walker in each step; a sampler or file without any step raises `AttributeError` in `get_chain` (library `emcee`).
-/

set_option autoImplicit false

namespace Pydsge.Info

open Pydsge.Chains

/-- Attributes and entries of `fdict` with text. -/
structure Texts where
  name : Option String
  fdictName : Option String
  description : Option String
  fdictDescription : Option String
  datetime : Option String

/-- `try: self.x except AttributeError: self.fdict["x"]`. -/
def attrOr (attr entry : Option String) : Except PyErr String :=
  match attr, entry with
  | some t, _ => .ok t
  | none, some t => .ok t
  | none, none => .error .keyError

/-- clsmethods.py:267-269. -/
def header (name dtime descr : String) : String :=
  "Title: " ++ name ++ "\n" ++ (if dtime = "" then "" else "Date: " ++ dtime ++ "\n") ++ "Description: " ++ descr ++ "\n"

/-- clsmethods.py:274-276. -/
def chainText (d walkers steps : Nat) (tune : Int) : String :=
  "Parameters: " ++ toString d ++ "\n" ++ "Chains: " ++ toString walkers ++ "\n" ++ "Last " ++ toString tune ++ " of " ++ toString steps ++ " samples\n"

variable {K α : Type} {d : Nat}

/-- clsmethods.py:271-278: what is added, with the object after `get_chain`. -/
def chainPart (W : World (Fin d → K) α) (s : Obj (Fin d → K) α) : Obj (Fin d → K) α × Except PyErr String :=
  match getChain W s none with
  | (s', .error .attributeError) => (s', .ok "")
  | (s', .error .keyError) => (s', .ok "")
  | (s', .error e) => (s', .error e)
  | (s', .ok []) => (s', .ok "")
  | (s', .ok (row :: rows)) =>
    match getTune s' with
    | .error .keyError => (s', .ok "")
    | .error e => (s', .error e)
    | .ok t => (s', .ok (chainText d row.length (rows.length + 1) t))

/-- clsmethods.py:250-283 `info`. -/
def info (W : World (Fin d → K) α) (tx : Texts) (s : Obj (Fin d → K) α) : Obj (Fin d → K) α × Except PyErr String :=
  match attrOr tx.name tx.fdictName with
  | .error e => (s, .error e)
  | .ok name =>
    match attrOr tx.description tx.fdictDescription with
    | .error e => (s, .error e)
    | .ok descr =>
      match chainPart W s with
      | (s', .error e) => (s', .error e)
      | (s', .ok c) => (s', .ok (header name (tx.datetime.getD "") descr ++ c))

end Pydsge.Info
