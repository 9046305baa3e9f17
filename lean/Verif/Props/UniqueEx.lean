import Verif.Props.Unique
import Verif.Examples.Flip

/-!
# Non-vacuity of C103, C104 and C105

The model of `Examples/Ex1.lean`, its declaration with the other sign, and larger tables.
-/

set_option autoImplicit false
set_option linter.unusedSimpArgs false

namespace Pydsge

open Matrix Pydsge.Engine Pydsge.Spec Pydsge.Tools Pydsge.GenSys

theorem Ex1.self_zero : Ex1.decl.rb Ex1.decl.cvar = 0 := by show (if (1 : Fin 2) = 0 then (1 : Rat) else 0) = 0; simp

theorem Ex1.self_ne_one : Ex1.decl.rb Ex1.decl.cvar ≠ 1 := by rw [Ex1.self_zero]; norm_num

theorem Ex1.lagsNotExpected {b : Rat} : Spec.LagsNotExpected (Ex1.declB b) := .of_rc rfl

/-- C103: a path that meets the hypotheses, for the spell `(1,3)`. -/
theorem C103_hypotheses_met : ∃ mod, Succeeded Ex1.lay Ex1.orc 2 30 (serial 30) mod ∧
    ∃ x, SolvesUnderSpell Ex1.decl (lagVal Ex1.lay 0) (fun _ => -9/4) x 1 3 ∧
      Spec.JoinsLinear Ex1.lay mod 0 (fun _ => -9/4) x (1 + 3) := by
  obtain ⟨mod, h⟩ := Ex1.succeeds 2 30 (Ex1.serial_perm 2 30)
  have h1 : Ex1.decl.rc = 0 := rfl
  obtain ⟨X, hX⟩ := (C15_elapsed_spell_reproduces_expected_path h (noLagFwd_of_rc h1) (l := 1) (k := 3) (by omega) (by omega) 0
    (fun _ => -9/4)).1
  obtain ⟨x, -, h2, h3⟩ := (C103_characterisation h h1 (by rw [Ex1.self_zero]; norm_num) (Or.inl Ex1.self_zero) (by omega)
    (by omega) 0 _ X).1 hX
  exact ⟨mod, h, x, h2, h3⟩

theorem Flip.same {E ν ε K : Type} [Fintype ν] [Fintype ε] [Field K] (s : E → Bool) (D : Declared E ν ε K) :
    Spec.SameModel D (Flip.decl s D) := by
  refine ⟨fun a b c e => ?_, rfl, rfl, rfl, rfl, rfl⟩
  have key : ∀ i, ((Flip.decl s D).A *ᵥ a + (Flip.decl s D).B *ᵥ b + (Flip.decl s D).C *ᵥ c + (Flip.decl s D).D *ᵥ e) i =
      (if s i then -1 else 1) * (D.A *ᵥ a + D.B *ᵥ b + D.C *ᵥ c + D.D *ᵥ e) i := by
    intro i
    simp only [Pi.add_apply, mulVec, dotProduct, Flip.decl, mul_assoc, ← Finset.mul_sum, ← mul_add]
  constructor
  · intro h
    funext i
    rw [key i, h]
    simp
  · intro h
    funext i
    have := key i
    rw [h, Pi.zero_apply] at this
    refine (mul_eq_zero.1 this.symm).resolve_left ?_
    split_ifs <;> simp

/-- C104: the model and its declaration with the other sign meet the hypotheses; with the shock `-9/4` the constraint binds. -/
theorem C104_hypotheses_met : ∃ mod, Succeeded Ex1.lay Ex1.orc 2 30 (serial 30) mod ∧
    Succeeded (Flip.layout (fun _ => true) Ex1.lay) (Flip.oracle (fun _ => true) Ex1.orc) 2 30 (serial 30) mod ∧
    Spec.SameModel Ex1.decl (Flip.decl (fun _ => true) Ex1.decl) ∧ Ex1.decl.A ≠ (Flip.decl (fun _ => true) Ex1.decl).A ∧
    Spec.SameLinear Ex1.lay mod (Flip.layout (fun _ => true) Ex1.lay) mod ∧ Spec.LagsNotExpected Ex1.decl ∧ Ex1.decl.rb Ex1.decl.cvar ≠ 1 ∧
    ∃ r, tFunc mod 0 (fun _ => -9/4) .none false = .ok r ∧ r.flag = 0 ∧ r.k = 1 := by
  obtain ⟨mod, h⟩ := Ex1.succeeds 2 30 (Ex1.serial_perm 2 30)
  obtain ⟨r, g1, g2, g3, g4, -, -⟩ := Ex1.binding_run 2 30 (by omega) (by omega) h
  refine ⟨mod, h, Flip.succeeded _ _ h, Flip.same _ _, ?_, ?_, Ex1.lagsNotExpected, Ex1.self_ne_one, r, g1, g4, g3⟩
  · intro hA
    have := congrFun (congrFun hA 0) 1
    simp [Flip.decl, Ex1.declB] at this
    norm_num at this
  · have hl : ∀ st, lagVal (Flip.layout (fun _ => true) Ex1.lay) st = lagVal Ex1.lay st := by
      intro st
      funext v
      unfold lagVal
      rw [if_neg (Ex1.not_inall v), if_neg (fun hi => Ex1.not_inall v ((Flip.inall_iff _ v).1 hi))]
      rfl
    intro st st' eps r r' hst
    rw [hl] at hst
    exact sameLinear_bounds h h Ex1.lagsNotExpected st st' eps r r' hst

/-- C105: tables of two sizes. -/
theorem C105_hypotheses_met : ∃ mod mod', Succeeded Ex1.lay Ex1.orc 2 30 (serial 30) mod ∧
    Succeeded Ex1.lay Ex1.orc 5 40 (serial 40) mod' ∧ Spec.LagsNotExpected Ex1.decl ∧ Ex1.decl.rb Ex1.decl.cvar ≠ 1 ∧
    ∃ r, tFunc mod 0 (fun _ => -9/4) .none false = .ok r ∧ r.flag = 0 ∧ 0 < r.k ∧ r.l = 0 := by
  obtain ⟨mod, h⟩ := Ex1.succeeds 2 30 (Ex1.serial_perm 2 30)
  obtain ⟨mod', h'⟩ := Ex1.succeeds 5 40 (Ex1.serial_perm 5 40)
  obtain ⟨r, g1, g2, g3, g4, -, -⟩ := Ex1.binding_run 2 30 (by omega) (by omega) h
  exact ⟨mod, mod', h, h', Ex1.lagsNotExpected, Ex1.self_ne_one, r, g1, g4, by omega, g2⟩

end Pydsge
