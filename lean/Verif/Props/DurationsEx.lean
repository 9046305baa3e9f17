import Verif.Props.DurationsBound
import Verif.Props.LowerBoundEx

/-!
# C192: an example
-/

set_option autoImplicit false
set_option linter.unusedSectionVars false
set_option linter.unusedSimpArgs false

namespace Pydsge

open Matrix Pydsge.Engine Pydsge.Spec Pydsge.Tools Pydsge.GenSys

/-- **C192**: the hypotheses are met, for all sizes of tables that have room for six periods. After the shock `-10` the constraint binds for six periods, after `-6` for three,
after `-5` for two; with the bound `-2` in place of `-1` it binds for two periods after the shock `-10`. -/
theorem C192_hypotheses_met (lMax kMax : Nat) (hk : 6 ≤ kMax) (hL : lMax + 1 ≤ 999) : ∃ mod mod',
    Succeeded (Ex17.layB (-1)) Ex17.orc lMax kMax (serial kMax) mod ∧ Succeeded (Ex17.layB (-2)) Ex17.orc lMax kMax (serial kMax) mod' ∧
    Spec.SameLinearCore id id (Ex17.layB (-1)) mod (Ex17.layB (-2)) mod' ∧
    Spec.LagsNotExpected (Ex17.declB (-1)) ∧ (Ex17.declB (-1)).rb (Ex17.declB (-1)).cvar ≠ 1 ∧ -2 < (Ex17.declB (-1)).xbar ∧
    Spec.NoReversalOf (Ex17.layB (-1)) mod ∧ Spec.LowersElsewhere (Ex17.layB (-1)) mod ∧
    Spec.NoReversalOf (Ex17.layB (-2)) mod' ∧ Spec.LowersElsewhere (Ex17.layB (-2)) mod' ∧
    Spec.FlagMeansEquilibrium (Ex17.layB (-1)) mod ∧ Spec.FlagMeansEquilibrium (Ex17.layB (-2)) mod' ∧
    (∀ v, v = 0 → Spec.Lowers (Ex17.layB (-1)) mod v 0) ∧
    (∀ e e', e 0 ≤ e' 0 → Spec.LinearOrders (Ex17.layB (-1)) mod (fun v => v = 0) (fun _ => False) e e') ∧
    (∃ r, tFunc mod 0 (fun _ => -10) .none false = .ok r ∧ r.l = 0 ∧ r.k = 6 ∧ r.flag = 0) ∧
    (∃ r, tFunc mod 0 (fun _ => -6) .none false = .ok r ∧ r.l = 0 ∧ r.k = 3 ∧ r.flag = 0) ∧
    (∃ r, tFunc mod 0 (fun _ => -5) .none false = .ok r ∧ r.l = 0 ∧ r.k = 2 ∧ r.flag = 0) ∧
    ∃ r, tFunc mod' 0 (fun _ => -10) .none false = .ok r ∧ r.l = 0 ∧ r.k = 2 ∧ r.flag = 0 := by
  obtain ⟨mod, h⟩ := Ex17.succeeds (b := -1) lMax kMax (fun _ _ => List.Perm.refl _)
  obtain ⟨mod', h'⟩ := Ex17.succeeds (b := -2) lMax kMax (fun _ _ => List.Perm.refl _)
  obtain ⟨r1, a1, a2, a3, a4, -⟩ := Ex17.run h (k := 6) (by omega) hk hL (st := 0) (eps := fun _ => -10) (by norm_num) (by norm_num)
  obtain ⟨r2, b1, b2, b3, b4, -⟩ := Ex17.run h (k := 3) (by omega) (by omega) hL (st := 0) (eps := fun _ => -6) (by norm_num) (by norm_num)
  obtain ⟨r3, c1, c2, c3, c4, -⟩ := Ex17.run h (k := 2) (by omega) (by omega) hL (st := 0) (eps := fun _ => -5) (by norm_num) (by norm_num)
  obtain ⟨r4, d1, d2, d3, d4, -⟩ := Ex17.run h' (k := 2) (by omega) (by omega) hL (st := 0) (eps := fun _ => -10) (by norm_num) (by norm_num)
  refine ⟨mod, mod', h, h', Ex17.sameLinear h h', Ex17.lagsNotExpected, Ex17.self_ne, by norm_num [Ex17.declB], Ex17.noReversalOf,
    Ex17.lowersElsewhere, Ex17.noReversalOf, Ex17.lowersElsewhere, Ex17.flagMeansEquilibrium h (by omega), Ex17.flagMeansEquilibrium h' (by omega), ?_,
    fun e e' he => Ex17.linearOrders h he, ⟨r1, a1, a3, a4, a2⟩, ⟨r2, b1, b3, b4, b2⟩, ⟨r3, c1, c3, c4, c2⟩, ⟨r4, d1, d3, d4, d2⟩⟩
  rintro v rfl
  exact Ex17.lowers_y 0

end Pydsge
