import Mathlib.Data.Matrix.Mul
import Verif.Spec.Spell

/-!
# Specification: what a declared linear model with one occasionally binding constraint means

Model equations (for all periods): `A E[x(+1)] + B x + C x(-1) + D eps = 0`.
Constrained variable: `x_c = max(x_bar, rb . x + rc . x(-1) + rd . eps)`.
-/

set_option autoImplicit false

namespace Pydsge.Spec

open Matrix

variable {E ν ε K : Type} [Fintype ν] [Fintype ε] [Field K]

/-- A model as written by the user. -/
structure Declared (E ν ε K : Type) where
  A : Matrix E ν K
  B : Matrix E ν K
  C : Matrix E ν K
  D : Matrix E ε K
  cvar : ν
  /-- coefficients of the right hand side of the constraint equation on current variables -/
  rb : ν → K
  /-- ... on lagged variables -/
  rc : ν → K
  /-- ... on shocks -/
  rd : ε → K
  xbar : K

/-- Value of the variables one period before period `s` of a path that starts after `xlag`. -/
def prev (xlag : ν → K) (x : Nat → ν → K) : Nat → ν → K
  | 0 => xlag
  | s + 1 => x s

/-- Shocks hit in period 0 only. -/
def shockAt (eps : ε → K) : Nat → ε → K
  | 0 => eps
  | _ + 1 => 0

/-- All model equations hold in period `s` along the (expected) path `x`. -/
def EqsHold (D : Declared E ν ε K) (xlag : ν → K) (eps : ε → K) (x : Nat → ν → K) (s : Nat) : Prop :=
  D.A *ᵥ x (s + 1) + D.B *ᵥ x s + D.C *ᵥ prev xlag x s + D.D *ᵥ shockAt eps s = 0

/-- Value of the right hand side of the constraint equation in period `s`. -/
def notional (D : Declared E ν ε K) (xlag : ν → K) (eps : ε → K) (x : Nat → ν → K) (s : Nat) : K :=
  D.rb ⬝ᵥ x s + D.rc ⬝ᵥ prev xlag x s + D.rd ⬝ᵥ shockAt eps s

/-- The path solves the model under the spell `(l,k)`: all equations hold in all periods, the constrained variable equals
its notional value in slack periods and `x_bar` in binding periods. -/
structure SolvesUnderSpell (D : Declared E ν ε K) (xlag : ν → K) (eps : ε → K) (x : Nat → ν → K) (l k : Nat) : Prop where
  eqs : ∀ s, EqsHold D xlag eps x s
  slack : ∀ s, ¬ BindsAt l k s → x s D.cvar = notional D xlag eps x s
  binding : ∀ s, BindsAt l k s → x s D.cvar = D.xbar

end Pydsge.Spec
