import Verif.Props.Existence
import Verif.Props.FoundLagEx
import Verif.Props.OneEqEx

/-!
# C181: examples
-/

set_option autoImplicit false
set_option linter.unusedSectionVars false
set_option linter.unusedSimpArgs false

namespace Pydsge

open Matrix Pydsge.Engine Pydsge.Spec Pydsge.Tools Pydsge.GenSys

/-- **C181**: the hypotheses are met by a model with lags, shocks and the constrained variable itself in its constraint; the equilibrium after the
shock `-7` has a spell of two periods, for every horizon from two periods on, and exists whether or not the tables hold that spell. -/
theorem C181_hypotheses_met (lMax kMax : Nat) : ∃ mod, Succeeded Ex9.lay Ex9.orc lMax kMax (serial kMax) mod ∧ Spec.LagsNotExpected Ex9.decl ∧
    Ex9.decl.rb Ex9.decl.cvar ≠ 1 ∧ Spec.NoReversalOf Ex9.lay mod ∧
    ∀ n, 2 ≤ n → ∀ x, Spec.EquilibriumUpTo Ex9.lay mod (0 : Fin 1 ⊕ Fin 1 → Rat) (fun _ => -7) n x ↔ x = Ex9.deep := by
  obtain ⟨mod, h⟩ := Ex9.succeeds (b := -1) lMax kMax (Ex9.serial_perm lMax kMax)
  have hP := Ex9.noReversalOf h
  refine ⟨mod, h, Ex9.lagsNotExpected, Ex9.self_ne, hP, fun n hn x => ?_⟩
  have hd : Spec.EquilibriumUpTo Ex9.lay mod (0 : Fin 1 ⊕ Fin 1 → Rat) (fun _ => -7) n Ex9.deep :=
    ⟨Ex9.deep_equilibrium.eqs, fun s _ => Ex9.deep_equilibrium.con s, joins_mono (Ex9.deep_joins h) hn⟩
  constructor
  · intro hx
    exact (C181_exists_unique h Ex9.lagsNotExpected Ex9.self_ne hP _ _ n).unique hx hd
  · rintro rfl
    exact hd

/-- **C181**: the hypotheses of `C181_flagged` are met. -/
theorem C181_flagged_hypotheses_met : ∃ mod r, Succeeded Ex9.lay Ex9.orc 1 1 (serial 1) mod ∧ Spec.NoReversalOf Ex9.lay mod ∧
    tFunc mod 0 (fun _ => -7) .none false = .ok r ∧ r.flag ≠ 0 := by
  obtain ⟨mod, r, h, h1, h2, -⟩ := C173_flagged_hypotheses_met
  exact ⟨mod, r, h, Ex9.noReversalOf h, h1, h2⟩

/-- **C181** (fails in general): if announced disturbances reverse, there may be two equilibria up to a horizon (at the steady state without a
shock), or none (after the shock `2`). -/
theorem C181_refuted {lMax kMax : Nat} {sched : Nat → List Nat} {mod : Model (Fin 1) (Fin 1) (Fin 1) (Fin 1) Rat}
    (h : Succeeded Ex12.lay Ex12.orc lMax kMax sched mod) :
    (∃ x x', x ≠ x' ∧ Spec.EquilibriumUpTo Ex12.lay mod (0 : Fin 1 ⊕ Fin 1 → Rat) 0 1 x ∧
      Spec.EquilibriumUpTo Ex12.lay mod (0 : Fin 1 ⊕ Fin 1 → Rat) 0 1 x') ∧
    ¬ ∃ x, Spec.EquilibriumUpTo Ex12.lay mod (0 : Fin 1 ⊕ Fin 1 → Rat) (fun _ => 2) 1 x := by
  have hr : ∀ (xl : Fin 2 → Rat) (eps : Fin 1 → Rat) (x : Nat → Fin 2 → Rat) s, Spec.ruleAt (Spec.asSolved Ex12.decl) xl eps x s = x s 0 := by
    intro xl eps x s
    unfold Spec.ruleAt
    rw [Spec.ruleValue_eq]
    simp [Spec.asSolved, Ex12.declB, dotProduct, Fin.sum_univ_two]
  refine ⟨⟨fun _ => 0, Ex12.other, fun e => ?_, ⟨Ex12.zero_equilibrium.eqs, fun s _ => ?_, joins_mono (Ex12.zero_joins h) (by omega)⟩,
    ⟨Ex12.other_equilibrium.eqs, fun s _ => ?_, Ex12.other_joins h⟩⟩, ?_⟩
  · have e' : (0 : Rat) = Ex12.other 0 0 := congrFun (congrFun e 0) 0
    rw [Ex12.other_y] at e'
    norm_num at e'
  · rw [hr, Ex12.zero_equilibrium.con s, Ex12.not_eq]
  · rw [hr, Ex12.other_equilibrium.con s, Ex12.not_eq]
  · rintro ⟨x, hx⟩
    have h1 := Ex12.eqs_iff.1 (hx.eqs 0)
    have h2 := (Ex12.joins_iff h).1 hx.joins 1 le_rfl
    have h3 : x 0 1 = max (-1) _ := hx.con 0 (by omega)
    rw [hr] at h3
    simp only [lag1, shockAt, Ex12.lag_y, Pi.zero_apply, Nat.zero_add] at h1 h2
    rcases le_total (-1) (x 0 0) with g | g
    · rw [max_eq_right g] at h3
      linarith [h2.1, h2.2]
    · rw [max_eq_left g] at h3
      linarith [h2.1, h2.2]

/-- The refutation is about a model that exists. -/
example : ∃ mod, Succeeded Ex12.lay Ex12.orc 3 17 (serial 17) mod := Ex12.succeeds 3 17 (Ex12.serial_perm 3 17)

end Pydsge
