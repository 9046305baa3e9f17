import Verif.Model.Py
import Mathlib.Tactic.SplitIfs

/-!
# Spells

A spell `(l,k)`: the constraint is slack for `l` periods, then binds for `k` periods, and is slack afterwards.
-/

set_option autoImplicit false

namespace Pydsge.Spec

/-- What is left of the spell `(l,k)` after `s` periods. -/
def elapsed (l k s : Nat) : Nat × Nat := if s ≤ l then (l - s, k) else (0, l + k - s)

/-- Under the spell `(l,k)` the constraint binds in period `s`. -/
def BindsAt (l k s : Nat) : Prop := l ≤ s ∧ s < l + k

instance (l k s : Nat) : Decidable (BindsAt l k s) := inferInstanceAs (Decidable (_ ∧ _))

theorem elapsed_zero (l k : Nat) : elapsed l k 0 = (l, k) := by simp [elapsed]

/-- Letting a spell elapse by `a` and then by `b` periods is letting it elapse by `a + b`. -/
theorem elapsed_add (l k a b : Nat) : elapsed (elapsed l k a).1 (elapsed l k a).2 b = elapsed l k (a + b) := by
  unfold elapsed
  by_cases h : a ≤ l
  · simp only [h, if_true]
    split_ifs <;> refine Prod.ext ?_ ?_ <;> dsimp only <;> omega
  · simp only [h, if_false]
    split_ifs <;> refine Prod.ext ?_ ?_ <;> dsimp only <;> omega

end Pydsge.Spec
