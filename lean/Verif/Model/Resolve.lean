import Verif.Model.Pipeline

/-!
# From the model file to equations (parser.py:648-780, 918-921)

Python's own parser is not modelled: an expression of the file is a tree over numbers, names and names with a date, `name(int)`. The cuts of
an equation at `=` are modelled (`RawEq`). The file declares a constraint (l.705; a model without one cannot be solved, gensys.py:118-121), and
the left hand side of the constraint is a name (other forms fail later, as the constrained variable is looked up by its text). Names of
Python's own functions in the constraint, which is read before they are taken away (l.746), are not modelled.
-/

set_option autoImplicit false

namespace Pydsge.Resolve

open Pydsge.Parser Pydsge.Pipeline

variable {K : Type}

/-- An expression of the file. -/
inductive Raw (K : Type)
  | num (c : K)
  | name (n : String)
  | call (n : String) (lead : Int)
  | add (a b : Raw K)
  | sub (a b : Raw K)
  | mul (a b : Raw K)
  | div (a b : Raw K)
  | neg (a : Raw K)
  | pow (a : Raw K) (n : Nat)
  | app (f : Fn) (a b : Raw K)
  deriving DecidableEq, Repr

/-- What a name stands for: a parameter or a function of parameters, a variable or a shock. -/
inductive Meaning
  | par
  | sym (k : Kind)
  deriving DecidableEq, Repr

/-- parser.py:687-690: `context`; of entries with the same name the last one stays. -/
def entries (vars pars shocks other : List String) : List (String × Meaning) :=
  vars.map (·, .sym .variable) ++ pars.map (·, .par) ++ shocks.map (·, .sym .shock) ++ other.map (·, .par)

def context (vars pars shocks other : List String) (n : String) : Option Meaning :=
  ((entries vars pars shocks other).reverse.find? (fun e => e.1 = n)).map Prod.snd

/-- `eval(txt, context)`. A parameter is a `sympy.Symbol`, which cannot be called. An unknown name: with `context["__builtins__"] = None`
(l.746) the look-up of a name outside of `context` raises a `TypeError`; the constraint is read before that line, where it is a `NameError`
(turned into a `SyntaxError` as every other exception). -/
def evalRaw (ctx : String → Option Meaning) : Raw K → Except PyErr (Expr K)
  | .num c => .ok (.num c)
  | .name n =>
    match ctx n with
    | none => .error .typeError
    | some .par => .ok (.par n)
    | some (.sym k) => .ok (.sym (TSym.mk' k n))
  | .call n i =>
    match ctx n with
    | none => .error .typeError
    | some .par => .error .typeError
    | some (.sym k) => .ok (.sym ((TSym.mk' k n).call i))
  | .add a b => do return .add (← evalRaw ctx a) (← evalRaw ctx b)
  | .sub a b => do return .sub (← evalRaw ctx a) (← evalRaw ctx b)
  | .mul a b => do return .mul (← evalRaw ctx a) (← evalRaw ctx b)
  | .div a b => do return .div (← evalRaw ctx a) (← evalRaw ctx b)
  | .neg a => do return .neg (← evalRaw ctx a)
  | .pow a n => do return .pow (← evalRaw ctx a) n
  | .app f a b => do return .app f (← evalRaw ctx a) (← evalRaw ctx b)

/-- The pieces between the `=` of an equation, at least one. -/
structure RawEq (K : Type) where
  first : Raw K
  rest : List (Raw K)
  deriving DecidableEq, Repr

/-- `except Exception as e: raise SyntaxError`. -/
def orSyntax {α : Type} : Except PyErr α → Except PyErr α
  | .error _ => .error .syntaxError
  | .ok a => .ok a

/-- parser.py:761-780: one model equation. Unpacking more than two pieces raises outside of the `try`. -/
def readEq [Zero K] (ctx : String → Option Meaning) (e : RawEq K) : Except PyErr (Eqn K) :=
  let side (l r : Raw K) : Except PyErr (Eqn K) := orSyntax (do return ⟨← evalRaw ctx l, ← evalRaw ctx r⟩)
  match e.rest with
  | [] => side e.first (.num 0)
  | [r] => side e.first r
  | _ => .error .valueError

/-- parser.py:705-728: the constraint `c = rhs`; unpacking is inside of the `try`. The result is the name of the constrained variable (l.721:
the text itself) and the right hand side. -/
def readCon (ctx : String → Option Meaning) (c : String) (rhs : List (Raw K)) : Except PyErr (Expr K) :=
  match rhs with
  | [r] => orSyntax (do
      let _ ← evalRaw (K := K) ctx (.name c)
      evalRaw ctx r)
  | _ => .error .syntaxError

/-- The entries of a model file. -/
structure File (K : Type) where
  vars : List String
  pars : List String
  shocks : List String
  other : List String
  eqs : List (RawEq K)
  /-- the constraints: left hand side and the pieces after `=` -/
  cons : List (String × List (Raw K))
  obs : List (Raw K)

def readEqs [Zero K] (ctx : String → Option Meaning) : List (RawEq K) → Except PyErr (List (Eqn K))
  | [] => .ok []
  | e :: es =>
    match readEq ctx e with
    | .error err => .error err
    | .ok e' =>
      match readEqs ctx es with
      | .error err => .error err
      | .ok es' => .ok (e' :: es')

/-- parser.py:918-919: `sum` and `range` are functions in measurement equations, whatever is declared under these names. That they are called
there is not modelled; here their use fails. -/
def obsContext (ctx : String → Option Meaning) (n : String) : Option Meaning := if n = "sum" ∨ n = "range" then none else ctx n

/-- parser.py:920-921: measurement equations; exceptions are not turned into others. -/
def readObs (ctx : String → Option Meaning) : List (Raw K) → Except PyErr (List (Expr K))
  | [] => .ok []
  | e :: es =>
    match evalRaw ctx e with
    | .error err => .error err
    | .ok e' =>
      match readObs ctx es with
      | .error err => .error err
      | .ok es' => .ok (e' :: es')

/-- parser.py:648-921, without the covariances: the declarations, and everything up to the compiled matrices. In the code the measurement
equations are read after the leads and lags are treated; the first exception is raised. -/
def readFile [Field K] (ord : List (TSym × TSym) → List (TSym × TSym)) (I : Interp K) (f : File K) : Except PyErr (Source K × Compiled K) :=
  if f.vars.any (fun v => ' ' ∈ v.toList) then .error .syntaxError
  else
    let ctx := context f.vars f.pars f.shocks f.other
    match f.cons with
    | [] => .error .indexError
    | [c] =>
      match readCon ctx c.1 c.2 with
      | .error e => .error e
      | .ok rhs =>
        if f.eqs.length + 1 ≠ f.vars.length then .error .syntaxError
        else
          match readEqs ctx f.eqs with
          | .error e => .error e
          | .ok eqs =>
            match parseEqs ord f.vars f.shocks eqs with
            | .error e => .error e
            | .ok _ =>
              match readObs (obsContext ctx) f.obs with
              | .error e => .error e
              | .ok obs =>
                let src : Source K := ⟨f.vars, f.shocks, eqs, c.1, rhs, obs⟩
                match compile ord I src with
                | .error e => .error e
                | .ok C => .ok (src, C)
    | _ => .error .notImplemented

end Pydsge.Resolve
