import Verif.Model.Py

/-!
# Parameter functions (parser.py:354-433)

`V` are the values that `eval` works with (symbolic expressions of the parameters, functions).
-/

set_option autoImplicit false

namespace Pydsge.ParaFunc

variable {V : Type}

/-- Python expressions as far as names are concerned: constants, names, and applications (operators are applications of constants).
Comprehensions and lambdas, which bind names, are left out. -/
inductive PE (V : Type)
  | lit (v : V)
  | name (n : String)
  | app (f a : PE V)
  deriving DecidableEq, Repr

/-- The names that an expression refers to. -/
def PE.names : PE V → List String
  | .lit _ => []
  | .name n => [n]
  | .app f a => f.names ++ a.names

/-- A dictionary with strings as keys. -/
abbrev Ctx (V : Type) := String → Option V

def Ctx.set (c : Ctx V) (n : String) (v : V) : Ctx V := fun m => if m = n then some v else c m

/-- `eval(e, context)`; `ap` applies a function or an operator. -/
def PE.eval (ap : V → V → Except PyErr V) (c : Ctx V) : PE V → Except PyErr V
  | .lit v => .ok v
  | .name n => match c n with | some v => .ok v | none => .error .nameError
  | .app f a =>
    match f.eval ap c with
    | .error e => .error e
    | .ok g =>
      match a.eval ap c with
      | .error e => .error e
      | .ok x => ap g x

/-- One entry of the section `parafunc`. -/
structure PDef (V : Type) where
  name : String
  body : PE V
  deriving DecidableEq, Repr

/-- parser.py:404-406: `context`, `ss` and the entries with their `checker`. -/
structure RState (V : Type) where
  ctx : Ctx V
  ss : Ctx V
  defs : List (PDef V × Bool)

/-- parser.py:414-433: one pass through the entries; the flag that is returned is `suc_loop`. -/
def pass (ap : V → V → Except PyErr V) (raise : Bool) :
    List (PDef V × Bool) → Ctx V → Ctx V → Bool → Except PyErr (RState V × Bool)
  | [], c, ss, suc => .ok (⟨c, ss, []⟩, suc)
  | (d, true) :: r, c, ss, suc =>
    match pass ap raise r c ss suc with
    | .error e => .error e
    | .ok (st, s) => .ok (⟨st.ctx, st.ss, (d, true) :: st.defs⟩, s)
  | (d, false) :: r, c, ss, suc =>
    match d.body.eval ap c with
    | .ok v =>
      match pass ap raise r (c.set d.name v) (ss.set d.name v) true with
      | .error e => .error e
      | .ok (st, s) => .ok (⟨st.ctx, st.ss, (d, true) :: st.defs⟩, s)
    | .error .nameError =>
      if raise then .error .nameError
      else
        match pass ap raise r c ss suc with
        | .error e => .error e
        | .ok (st, s) => .ok (⟨st.ctx, st.ss, (d, false) :: st.defs⟩, s)
    | .error e => .error e

/-- parser.py:408-433: the loop, for at most `fuel` rounds; `none` is a loop that is still running. -/
def loop (ap : V → V → Except PyErr V) : Nat → Bool → RState V → Option (Except PyErr (RState V))
  | 0, _, _ => none
  | f + 1, suc, st =>
    if st.defs.all (fun d => d.2) then some (.ok st)
    else
      match pass ap (!suc) st.defs st.ctx st.ss false with
      | .error e => some (.error e)
      | .ok (st', suc') => loop ap f suc' st'

/-- parser.py:404-433: the dictionary `ss` of all entries, from the context of parameters and functions (l.356-402). -/
def resolve (ap : V → V → Except PyErr V) (fuel : Nat) (base : Ctx V) (defs : List (PDef V)) : Option (Except PyErr (Ctx V)) :=
  (loop ap fuel true ⟨base, fun _ => none, defs.map (fun d => (d, false))⟩).map (fun r => r.map RState.ss)

/-- parser.py:446-451: `psi` lists the entries in the order of the section, and `pcompile` puts them behind the parameters. -/
def psi (ss : Ctx V) (defs : List (PDef V)) : List (Option V) := defs.map (fun d => ss d.name)

end Pydsge.ParaFunc
