import Verif.Props.LowerBound
import Verif.Props.AveragesEx

/-!
# C146: a model that meets the hypotheses of the comparison in every period
-/

set_option autoImplicit false
set_option linter.unusedSectionVars false
set_option linter.unusedSimpArgs false

namespace Pydsge

open Matrix Pydsge.Engine Pydsge.Spec Pydsge.Tools Pydsge.GenSys

namespace Ex17

variable {b b' : Rat} {mod mod' : Model (Fin 1) (Fin 1) (Fin 1) (Fin 1) Rat} {lMax kMax lMax' kMax' : Nat} {sched sched' : Nat → List Nat}

instance : DecidablePred (inall tol (yaml ((declB b).withBound b') Z0 Z1)) :=
  inferInstanceAs (DecidablePred (inall tol (inpB b')))

/-- the bound is not part of the linear solution -/
theorem sameLinear (h : Succeeded (layB b) orc lMax kMax sched mod) (h' : Succeeded (layB b') orc lMax' kMax' sched' mod') :
    Spec.SameLinearCore id id (layB b) mod (layB b') mod' := by
  intro st st' eps r r' hst hr hr' v
  have hz : st (.inr 0) = st' (.inr 0) := by
    have e := congrFun hst 0
    simp only [lagVal, Function.comp, id] at e
    rw [if_neg (not_inall _), if_neg (not_inall _), val_y, val_y] at e
    exact e
  obtain ⟨c, hm⟩ := genSys_ok h.perm h.gen
  obtain ⟨c', hm'⟩ := genSys_ok h'.perm h'.gen
  have k1 := hm.kl
  have k2 := hm'.kl
  simp only [orc, Except.ok.injEq, Prod.mk.injEq] at k1 k2
  rw [← tFunc_linear, tFunc_linear_eq h, ← k1.1, ← k1.2] at hr
  rw [← tFunc_linear, tFunc_linear_eq h', ← k2.1, ← k2.2] at hr'
  have hq : q0Of st (eps ∘ id) = q0Of st' eps := by
    funext i
    rcases i with i | i
    · rw [Subsingleton.elim i 0]; exact hz
    · rfl
  rw [hq] at hr
  cases hr
  cases hr'
  rfl

theorem linearOrdersAcross (h : Succeeded (layB b) orc lMax kMax sched mod) (h' : Succeeded (layB b') orc lMax' kMax' sched' mod') :
    Spec.LinearOrdersAcross (D := declB b) (b := b') (layB b) mod (layB b') mod' (fun v => v = 0) (fun _ => False) := by
  obtain ⟨c, hm⟩ := genSys_ok h.perm h.gen
  obtain ⟨c', hm'⟩ := genSys_ok h'.perm h'.gen
  have k1 := hm.kl
  have k2 := hm'.kl
  simp only [orc, Except.ok.injEq, Prod.mk.injEq] at k1 k2
  intro st st' e r r' ho h1 h2
  rw [tFunc_linear_eq h, ← k1.1, ← k1.2] at h1
  rw [tFunc_linear_eq h', ← k2.1, ← k2.2] at h2
  cases h1
  cases h2
  have a1 : (layB b).val st (.inl 0) ≤ (layB b').val st' (.inl 0) := ho.1 0 rfl
  rw [val_y, val_y] at a1
  refine ⟨⟨fun v hv => ?_, fun v hv => hv.elim⟩, ?_⟩
  · subst hv
    show (layB b).val _ (.inl 0) ≤ (layB b').val _ (.inl 0)
    rw [val_y, val_y]
    simp [mulVec, dotProduct, Fintype.sum_sum_type, lam, omg, q0Of]
    linarith
  · show (layB b).val _ (.inl 1) ≤ (layB b').val _ (.inl 1)
    rw [val_r, val_r]
    simp [mulVec, dotProduct, Fintype.sum_sum_type, lam, omg, q0Of]
    linarith

end Ex17

/-- **C146**: the hypotheses of the comparison are met by the bounds `-1` and `-2`, for all sizes of tables. After the shock `-6` the constraint binds
for three periods at `-1` and for one period at `-2`, and `y` is `-14/3` and `-10/3`. -/
theorem C146_ordered_hypotheses_met (lMax kMax : Nat) (hk : 3 ≤ kMax) (hL : lMax + 1 ≤ 999) : ∃ mod mod',
    Succeeded (Ex17.layB (-1)) Ex17.orc lMax kMax (serial kMax) mod ∧ Succeeded (Ex17.layB (-2)) Ex17.orc lMax kMax (serial kMax) mod' ∧
    Ex17.declB (-2) = (Ex17.declB (-1)).withBound (-2) ∧ Spec.SameLinearCore id id (Ex17.layB (-1)) mod (Ex17.layB (-2)) mod' ∧
    Spec.LagsNotExpected (Ex17.declB (-1)) ∧ (Ex17.declB (-1)).rb (Ex17.declB (-1)).cvar ≠ 1 ∧ -2 ≤ (Ex17.declB (-1)).xbar ∧
    Spec.NoReversalOf (Ex17.layB (-2)) mod' ∧ Spec.LowersElsewhere (Ex17.layB (-2)) mod' ∧
    (∀ v, v = 0 → Spec.Lowers (Ex17.layB (-2)) mod' v 0) ∧
    Spec.LinearOrdersAcross (D := Ex17.declB (-1)) (b := -2) (Ex17.layB (-1)) mod (Ex17.layB (-2)) mod' (fun v => v = 0) (fun _ => False) ∧
    Spec.FlagMeansEquilibrium (Ex17.layB (-1)) mod ∧ Spec.FlagMeansEquilibrium (Ex17.layB (-2)) mod' ∧
    Spec.OrderedAcross (D := Ex17.declB (-1)) (b := -2) (Ex17.layB (-1)) (Ex17.layB (-2)) (fun v => v = 0) (fun _ => False) 0 0 ∧
    ∃ res res', simLoop mod false 0 [fun _ => -6] = .ok res ∧ res.flag = 0 ∧ res.LK = [(0, 3)] ∧
      simLoop mod' false 0 [fun _ => -6] = .ok res' ∧ res'.flag = 0 ∧ res'.LK = [(0, 1)] ∧
      res.X.map (fun s => s (.inr 0)) = [0, -14/3] ∧ res'.X.map (fun s => s (.inr 0)) = [0, -10/3] := by
  obtain ⟨mod, h⟩ := Ex17.succeeds (b := -1) lMax kMax (fun _ _ => List.Perm.refl _)
  obtain ⟨mod', h'⟩ := Ex17.succeeds (b := -2) lMax kMax (fun _ _ => List.Perm.refl _)
  obtain ⟨r, a1, a2, a3, a4, a5⟩ := Ex17.run h (k := 3) (by omega) hk hL (st := 0) (eps := fun _ => -6) (by norm_num) (by norm_num)
  obtain ⟨r', b1, b2, b3, b4, b5⟩ := Ex17.run h' (k := 1) le_rfl (by omega) hL (st := 0) (eps := fun _ => -6) (by norm_num) (by norm_num)
  obtain ⟨rs, rl, rk, rf⟩ := r
  obtain ⟨rs', rl', rk', rf'⟩ := r'
  simp only at a2 a3 a4 a5 b2 b3 b4 b5
  subst a2 a3 a4 b2 b3 b4
  refine ⟨mod, mod', h, h', rfl, Ex17.sameLinear h h', Ex17.lagsNotExpected, Ex17.self_ne, by norm_num [Ex17.declB], Ex17.noReversalOf,
    Ex17.lowersElsewhere, ?_, Ex17.linearOrdersAcross h h', Ex17.flagMeansEquilibrium h (by omega), Ex17.flagMeansEquilibrium h' (by omega), ?_,
    _, _, by simp only [simLoop, a1]; rfl, rfl, rfl, by simp only [simLoop, b1]; rfl, rfl, rfl, ?_, ?_⟩
  · rintro v rfl
    exact Ex17.lowers_y 0
  · refine ⟨fun v hv => ?_, fun v hv => hv.elim⟩
    subst hv
    show (Ex17.layB (-1)).val 0 (.inl 0) ≤ (Ex17.layB (-2)).val 0 (.inl 0)
    rw [Ex17.val_y, Ex17.val_y]
  · simp only [List.map_cons, List.map_nil, a5]
    norm_num
  · simp only [List.map_cons, List.map_nil, b5]
    norm_num

end Pydsge
