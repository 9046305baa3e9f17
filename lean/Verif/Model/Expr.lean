import Verif.Model.Symbols
import Mathlib.Algebra.Field.Defs
import Mathlib.Algebra.Field.Basic

/-!
# Expressions and equations as sympy holds them

Trees over numbers, parameters and model symbols. sympy's automatic simplifications are not modelled: an equation is the tree
that sympy holds after `eval` (parser.py:768-780), `subs` and `diff` act on the tree.
-/

set_option autoImplicit false

namespace Pydsge

/-- Functions of two arguments that are not field operations (for instance powers with an arbitrary exponent), and their partial
derivatives. -/
inductive Fn
  | base (f : String)
  | d1 (f : Fn)
  | d2 (f : Fn)
  deriving DecidableEq, Repr

inductive Expr (K : Type)
  | num (c : K)
  | par (n : String)
  | sym (s : TSym)
  | add (a b : Expr K)
  | sub (a b : Expr K)
  | mul (a b : Expr K)
  | div (a b : Expr K)
  | neg (a : Expr K)
  | pow (a : Expr K) (n : Nat)
  | app (f : Fn) (a b : Expr K)
  deriving DecidableEq, Repr

/-- Values of the parameters, and the functions. -/
structure Interp (K : Type) where
  par : String → K
  fn : Fn → K → K → K

namespace Expr
variable {K : Type}

/-- `e.atoms(Variable)` and `e.atoms(Shock)` together, as a list. -/
def syms : Expr K → List TSym
  | num _ => []
  | par _ => []
  | sym s => [s]
  | add a b => a.syms ++ b.syms
  | sub a b => a.syms ++ b.syms
  | mul a b => a.syms ++ b.syms
  | div a b => a.syms ++ b.syms
  | neg a => a.syms
  | pow a _ => a.syms
  | app _ a b => a.syms ++ b.syms

/-- One replacement of `e.subs`. -/
def subs1 (k v : TSym) : Expr K → Expr K
  | num c => num c
  | par n => par n
  | sym s => if s = k then sym v else sym s
  | add a b => add (a.subs1 k v) (b.subs1 k v)
  | sub a b => sub (a.subs1 k v) (b.subs1 k v)
  | mul a b => mul (a.subs1 k v) (b.subs1 k v)
  | div a b => div (a.subs1 k v) (b.subs1 k v)
  | neg a => neg (a.subs1 k v)
  | pow a n => pow (a.subs1 k v) n
  | app f a b => app f (a.subs1 k v) (b.subs1 k v)

/-- `e.subs(d)`: sympy replaces one key after the other. -/
def subs (d : List (TSym × TSym)) (e : Expr K) : Expr K := d.foldl (fun e kv => e.subs1 kv.1 kv.2) e

section
variable [Field K]

/-- The value of an expression. -/
def eval (I : Interp K) (ρ : TSym → K) : Expr K → K
  | num c => c
  | par n => I.par n
  | sym s => ρ s
  | add a b => a.eval I ρ + b.eval I ρ
  | sub a b => a.eval I ρ - b.eval I ρ
  | mul a b => a.eval I ρ * b.eval I ρ
  | div a b => a.eval I ρ / b.eval I ρ
  | neg a => -a.eval I ρ
  | pow a n => a.eval I ρ ^ n
  | app f a b => I.fn f (a.eval I ρ) (b.eval I ρ)

/-- `e.diff(s)`. -/
def diff (s : TSym) : Expr K → Expr K
  | num _ => num 0
  | par _ => num 0
  | sym t => if t = s then num 1 else num 0
  | add a b => add (a.diff s) (b.diff s)
  | sub a b => sub (a.diff s) (b.diff s)
  | mul a b => add (mul (a.diff s) b) (mul a (b.diff s))
  | div a b => div (sub (mul (a.diff s) b) (mul a (b.diff s))) (mul b b)
  | neg a => neg (a.diff s)
  | pow a n => mul (mul (num (n : K)) (pow a (n - 1))) (a.diff s)
  | app f a b => add (mul (app (.d1 f) a b) (a.diff s)) (mul (app (.d2 f) a b) (b.diff s))

end
end Expr

/-- symbols.py:138-151 `Equation`. -/
structure Eqn (K : Type) where
  lhs : Expr K
  rhs : Expr K
  deriving DecidableEq, Repr

namespace Eqn
variable {K : Type}

def syms (e : Eqn K) : List TSym := e.lhs.syms ++ e.rhs.syms

def subs (d : List (TSym × TSym)) (e : Eqn K) : Eqn K := ⟨e.lhs.subs d, e.rhs.subs d⟩

/-- symbols.py:143-145. -/
def setEqZero (e : Eqn K) : Expr K := .sub e.lhs e.rhs

end Eqn
end Pydsge
