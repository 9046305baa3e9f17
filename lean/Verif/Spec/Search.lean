import Verif.Model.Py
import Mathlib.Algebra.Order.Field.Basic

/-!
# Specification of the `(l,k)` search

`v i l k` is the value of the constraint expression in one of five periods under the assumption `(l,k)`:
`i = 0`: period 0, `1`: period `l-1`, `2`: period `l`, `3`: period `l+k-1`, `4`: period `l+k`.
-/

set_option autoImplicit false

namespace Pydsge.Spec

variable {K : Type} [LinearOrder K]

/-- The spell `(l,k)` is consistent with the constraint values: it binds for at least one period; before that the notional
value is not below the bound (checked in periods `0` and `l-1`); in the first and last binding period it is not above it;
in the first period after the spell it is not below it. -/
structure Consistent (v : Fin 5 → Nat → Nat → K) (xbar : K) (l k : Nat) : Prop where
  binds : 1 ≤ k
  start : 1 ≤ l → xbar ≤ v 0 l k
  before : 2 ≤ l → xbar ≤ v 1 l k
  exit : xbar ≤ v 4 l k
  first : v 2 l k ≤ xbar
  last : 2 ≤ k → v 3 l k ≤ xbar

/-- The unconstrained path stays strictly above the bound at every horizon the tables cover. -/
def NeverBinds (v : Fin 5 → Nat → Nat → K) (xbar : K) (L : Nat) : Prop := ∀ j < L, xbar < v 2 j 0

/-- Lexicographic order on pairs, strict. -/
def LexLt (a b : Nat × Nat) : Prop := a.1 < b.1 ∨ (a.1 = b.1 ∧ a.2 < b.2)

/-- `(l,k)` is the lexicographically least consistent pair inside an `L × Kk` table. -/
def LeastConsistent (v : Fin 5 → Nat → Nat → K) (xbar : K) (L Kk l k : Nat) : Prop :=
  l < L ∧ k < Kk ∧ Consistent v xbar l k ∧
    ∀ l' k', l' < L → k' < Kk → Consistent v xbar l' k' → ¬ LexLt (l', k') (l, k)

end Pydsge.Spec
