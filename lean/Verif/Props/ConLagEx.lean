import Verif.Props.ConLag
import Verif.Examples.Ex9

/-! # Non-vacuity of C148 -/

set_option autoImplicit false
set_option linter.unusedSimpArgs false

namespace Pydsge

open Matrix Pydsge.Engine Pydsge.Spec Pydsge.Tools Pydsge.GenSys

/-- **C148**: a model with lags, shocks and the constrained variable itself in its constraint.  Its expected paths solve another
model than the declared one, and in a step with flag 0 in which the constraint binds the rule value is `-2` (`-12/5` for the declared
constraint). -/
theorem C148_hypotheses_met (lMax kMax : Nat) (hk : 1 ≤ kMax) (hL : lMax + 1 ≤ 999) : ∃ mod,
    Succeeded Ex9.lay Ex9.orc lMax kMax (serial kMax) mod ∧ Spec.LagsNotExpected Ex9.decl ∧ Ex9.decl.rb Ex9.decl.cvar ≠ 1 ∧
    Ex9.decl.rc ≠ 0 ∧ Ex9.decl.rd ≠ 0 ∧ Ex9.decl.rb Ex9.decl.cvar ≠ 0 ∧
    (∃ X, ExpectedPath mod 0 0 (fun _ => 1) 0 X ∧
      SolvesUnderSpell (Spec.asSolved Ex9.decl) (lagVal Ex9.lay (fun _ => 1)) 0 (fun s v => Ex9.lay.val (X s) (.inl v)) 0 0 ∧
      ¬ SolvesUnderSpell Ex9.decl (lagVal Ex9.lay (fun _ => 1)) 0 (fun s v => Ex9.lay.val (X s) (.inl v)) 0 0) ∧
    ∃ r, tFunc mod 0 (fun _ => -2) .none false = .ok r ∧ r.flag = 0 ∧ Ex9.lay.val r.state (.inl Ex9.decl.cvar) = -1 ∧
      Spec.ruleValue (Spec.asSolved Ex9.decl) (lagVal Ex9.lay 0) (fun _ => -2) (fun v => Ex9.lay.val r.state (.inl v)) = -2 ∧
      Spec.ruleValue Ex9.decl (lagVal Ex9.lay 0) (fun _ => -2) (fun v => Ex9.lay.val r.state (.inl v)) = -12/5 := by
  obtain ⟨mod, h⟩ := Ex9.succeeds (b := -1) lMax kMax (Ex9.serial_perm lMax kMax)
  have hlag : Spec.LagsNotExpected Ex9.decl := by
    intro v hv e
    have : v = 0 := by
      by_contra h0
      exact hv (if_neg h0)
    subst this
    rfl
  have hself : Ex9.decl.rb Ex9.decl.cvar ≠ 1 := by show (1/2 : Rat) ≠ 1; norm_num
  have hz : ∀ st, Ex9.lay.val st (.inl 0) = st (.inr 0) := fun st => Ex9.lay.val_z st 0
  have hp : ∀ st, Ex9.lay.val st (.inl 1) = st (.inl 0) := fun st => Ex9.lay.val_p st 0
  have hlv : ∀ st v, lagVal Ex9.lay st v = Ex9.lay.val st (.inl v) := by
    intro st v
    unfold lagVal
    rw [if_neg (Ex9.not_inall v)]
  refine ⟨mod, h, hlag, hself, ?_, ?_, ?_, ?_, ?_⟩
  · intro h0
    have := congrFun h0 0
    simp [Ex9.declB] at this
  · intro h0
    have := congrFun h0 0
    simp [Ex9.declB] at this
  · show (1/2 : Rat) ≠ 0; norm_num
  · obtain ⟨c, hm⟩ := genSys_ok h.perm h.gen
    have hX := (expectedPath_iff hm h.orc h.noTiny h.square h.states (noLagFwd_of_not_expected hlag) (Nat.zero_le _) (Nat.zero_le _)
      (fun _ => 1) 0 _).2 fun _ => rfl
    refine ⟨_, hX, C148_paths_solve h hlag hself (Nat.zero_le _) (Nat.zero_le _) _ _ _ hX, fun hd => ?_⟩
    have h1 := (C148_distance h hlag hself (Nat.zero_le _) (Nat.zero_le _) _ _ _ hX).1 hd 0 (by unfold BindsAt; omega)
    simp only [prev, dotProduct, Fin.sum_univ_two, hlv, hz, hp, shockAt] at h1
    simp [Ex9.declB] at h1
  · obtain ⟨r, h1, _, _, h2, h3, h4⟩ := Ex9.binding_run lMax kMax hk hL h
    refine ⟨r, h1, h2, ?_, ?_, ?_⟩
    · exact (hp _).trans h3
    · simp only [Spec.ruleValue_eq, Spec.asSolved, dotProduct, Fin.sum_univ_two, hlv, hz, hp, h3, h4]
      simp [Ex9.declB, hz, hp, h3, h4]
      norm_num
    · simp only [Spec.ruleValue_eq, dotProduct, Fin.sum_univ_two, hlv, hz, hp, h3, h4]
      simp [Ex9.declB, hz, hp, h3, h4]
      norm_num

end Pydsge
