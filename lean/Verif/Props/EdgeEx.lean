import Verif.Props.Edge
import Verif.Props.TimeConsEx
import Verif.Props.Unique

/-!
# C149: a case that meets the hypotheses
-/

set_option autoImplicit false
set_option linter.unusedSimpArgs false
set_option linter.unusedSectionVars false

namespace Pydsge

open Matrix Pydsge.Engine Pydsge.Spec Pydsge.Tools Pydsge.GenSys

/-- **C149**: the hypotheses are met.  After a shock of `-2` in the model of `Ex1`, spells of two periods and of one period after one
unconstrained period give the same path, on which the rule gives the bound `-1` in the first period.  The spell of one period gives a different path. -/
theorem C149_hypotheses_met {lMax kMax : Nat} {sched : Nat → List Nat} {mod : Model (Fin 1) (Fin 1) (Fin 1) (Fin 1) Rat}
    (hl : 1 ≤ lMax) (hk : 2 ≤ kMax) (h : Succeeded Ex1.lay Ex1.orc lMax kMax sched mod) :
    Spec.LagsNotExpected Ex1.decl ∧ Ex1.decl.rb Ex1.decl.cvar ≠ 1 ∧
    ∃ X, ExpectedPath mod 0 2 0 (fun _ => -2) X ∧ ExpectedPath mod 1 1 0 (fun _ => -2) X ∧ ¬ ExpectedPath mod 0 1 0 (fun _ => -2) X ∧
      X 0 (.inr 0) = -1 ∧ X 1 (.inr 0) = -1/2 ∧ X 1 (.inl 0) = -1 := by
  obtain ⟨c, hm⟩ := genSys_ok h.perm h.gen
  have hf : Spec.LagsNotExpected Ex1.decl := .of_rc rfl
  have hself : Ex1.decl.rb Ex1.decl.cvar ≠ 1 := by simp [Ex1.declB]
  have hX : ExpectedPath mod 0 2 0 (fun _ => -2) (xPath c 0 2 (q0Of 0 fun _ => -2)) :=
    (expectedPath_iff hm h.orc h.noTiny h.square h.states (noLagFwd_of_rc rfl) (Nat.zero_le _) hk 0 _ _).2 fun _ => rfl
  generalize xPath c 0 2 (q0Of 0 fun _ => -2) = X at hX
  have f := Ex1.facts h (Nat.zero_le _) hk hX
  have e0 := f.eq0
  have e1 := f.eq 0
  have b1 := f.bind 1 (by decide)
  have s2 := f.slack 2 (by decide)
  have l1 := f.lin 1 (.inr le_rfl)
  simp only [Pi.zero_apply, Nat.zero_add, Nat.reduceAdd] at e0 e1 l1
  have y0 : X 0 (.inr 0) = -1 := by linarith
  have y1 : X 1 (.inr 0) = -1/2 := by linarith
  have eD : Spec.asSolved Ex1.decl = Ex1.decl := Spec.asSolved_of Ex1.decl rfl (Or.inr rfl)
  refine ⟨hf, hself, X, hX, ?_, ?_, y0, y1, b1⟩
  · rw [C149_start_of_spell h hf hself hl hk hX, eD, Ex1.notional_y, y0]
    rfl
  · rw [C149_two_spells h hf hself (Nat.zero_le _) hk (Nat.zero_le _) (by omega) (Or.inl hl) hX]
    intro hb
    have := (hb 1 (by unfold BindsAt; omega)).2
    rw [eD, Ex1.notional_y, y1] at this
    have e : Ex1.decl.xbar = -1 := rfl
    rw [e] at this
    norm_num at this

end Pydsge
