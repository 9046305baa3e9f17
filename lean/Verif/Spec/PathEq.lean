import Verif.Model.Expr

/-!
# When a path solves a list of equations

A path gives every variable and every shock a value in every period; a symbol with date `d` read in period `t` is the value in
period `t + d`.
-/

set_option autoImplicit false

namespace Pydsge

abbrev Path (K : Type) := Kind → String → Int → K

def Path.at {K : Type} (p : Path K) (t : Int) : TSym → K := fun s => p s.kind s.name (t + s.date)

def Holds {K : Type} [Field K] (I : Interp K) (p : Path K) (e : Eqn K) : Prop :=
  ∀ t, e.lhs.eval I (p.at t) = e.rhs.eval I (p.at t)

def Solves {K : Type} [Field K] (I : Interp K) (eqs : List (Eqn K)) (p : Path K) : Prop := ∀ e ∈ eqs, Holds I p e

/-- The two paths agree on the shocks and on the listed variables. -/
def AgreeOn {K : Type} (vars : List String) (p p' : Path K) : Prop :=
  (∀ s t, p' .shock s t = p .shock s t) ∧ ∀ v ∈ vars, ∀ t, p' .variable v t = p .variable v t

/-- Every variable in the equations is one of the listed ones (parser.py:768-778: anything else raises). -/
def DeclaredVars {K : Type} (vars : List String) (eqs : List (Eqn K)) : Prop :=
  ∀ e ∈ eqs, ∀ s ∈ e.syms, s.kind = .variable → s.name ∈ vars

/-- Every lead in the equations is at most `n`. -/
def LeadsAtMost {K : Type} (n : Int) (eqs : List (Eqn K)) : Prop :=
  ∀ e ∈ eqs, ∀ s ∈ e.syms, s.kind = .variable → s.date ≤ n

end Pydsge
