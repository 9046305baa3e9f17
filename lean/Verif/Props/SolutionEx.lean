import Verif.Examples.Ex1Run

/-!
# Non-vacuity of C01, C02, C03, C14, C15

The model `y = 3/4 y(-1) - r(+1) + e`, `r = max(y, -1)` of `Examples/Ex1.lean` meets all hypotheses, for every table size, and
with the shock `-9/4` the constraint binds.
-/

set_option autoImplicit false

namespace Pydsge

open Pydsge.Engine Pydsge.Spec Pydsge.Tools Pydsge.GenSys Ex1

/-- C01: the hypotheses hold, an expected path exists, and the conclusion applies to it (`l = 1`, `k = 3`). -/
example : ∃ mod, Succeeded Ex1.lay Ex1.orc 2 30 (serial 30) mod ∧ Ex1.decl.rc = 0 ∧ Ex1.decl.rb Ex1.decl.cvar ≠ 1 ∧
    (Ex1.decl.rb Ex1.decl.cvar = 0 ∨ Ex1.decl.rd = 0) ∧
    ∃ X, ExpectedPath mod 1 3 0 (fun _ => -9/4) X ∧
      SolvesUnderSpell Ex1.decl (lagVal Ex1.lay 0) (fun _ => -9/4) (fun s v => Ex1.lay.val (X s) (.inl v)) 1 3 := by
  obtain ⟨mod, h⟩ := Ex1.succeeds 2 30 (Ex1.serial_perm 2 30)
  have h1 : Ex1.decl.rc = 0 := rfl
  have h2 : Ex1.decl.rb Ex1.decl.cvar ≠ 1 := by show (if (1 : Fin 2) = 0 then (1 : Rat) else 0) ≠ 1; simp
  have h3 : Ex1.decl.rb Ex1.decl.cvar = 0 ∨ Ex1.decl.rd = 0 := Or.inr rfl
  obtain ⟨X, hX⟩ := (C15_elapsed_spell_reproduces_expected_path h (noLagFwd_of_rc h1) (l := 1) (k := 3) (by omega) (by omega) 0
    (fun _ => -9/4)).1
  exact ⟨mod, h, h1, h2, h3, X, hX, C01_expected_paths_solve_declared_model h h1 h2 h3 (by omega) (by omega) 0 _ X hX⟩

/-- C02, C03, C14: a step with flag 0 in which the constraint binds strictly. -/
example : ∃ mod, Succeeded Ex1.lay Ex1.orc 2 30 (serial 30) mod ∧ Ex1.inp'.fb0 Ex1.inp'.cvar ≠ 0 ∧ Ex1.decl.rc = 0 ∧
    Ex1.decl.rb Ex1.decl.cvar = 0 ∧
    ∃ r, tFunc mod 0 (fun _ => -9/4) .none false = .ok r ∧ r.flag = 0 ∧ r.l = 0 ∧ r.k = 1 ∧ r.state (.inl 0) = -1 ∧
      r.state (.inr 0) = -3/2 := by
  obtain ⟨mod, h⟩ := Ex1.succeeds 2 30 (Ex1.serial_perm 2 30)
  have h2 : Ex1.decl.rb Ex1.decl.cvar = 0 := by show (if (1 : Fin 2) = 0 then (1 : Rat) else 0) = 0; simp
  obtain ⟨r, g1, g2, g3, g4, g5, g6⟩ := Ex1.binding_run 2 30 (by omega) (by omega) h
  exact ⟨mod, h, fb0_cvar_ne (by rw [h2]; norm_num), rfl, h2, r, g1, g4, g2, g3, g5, g6⟩

end Pydsge
