import Verif.Props.Substitute
import Verif.Props.SatelliteEx
import Verif.Examples.Ex15

/-!
# C178: a case that meets the hypotheses

The model of `Ex1` and the same model with the name `w` for `3/4 y` (`Ex15`).
-/

set_option autoImplicit false
set_option linter.unusedSimpArgs false
set_option linter.unusedSectionVars false

namespace Pydsge

open Matrix Pydsge.Engine Pydsge.Spec Pydsge.Tools Pydsge.GenSys

/-- the definition of `w` -/
def Ex15.Def (x : Fin 3 → Rat) : Prop := x 1 = 3/4 * x 0

theorem Ex15.withoutNames : Spec.WithoutNames Ex7.emb Ex15.Def Ex15.decl Ex1.decl := by
  refine ⟨fun a b c e h => ?_, fun a b c e ha hb hc h => ?_, rfl, fun x hx => ?_, fun x hx => ?_, rfl, rfl⟩
  · have := congrFun h true
    simp [Ex15.decl, mulVec, dotProduct, Fin.sum_univ_succ] at this
    unfold Ex15.Def
    linarith
  · funext i
    have := congrFun h false
    unfold Ex15.Def at hc
    simp [Ex15.decl, Ex1.declB, Ex7.emb, mulVec, dotProduct, Fin.sum_univ_succ] at this ⊢
    linarith
  · unfold Ex15.Def at hx
    simp [Ex15.decl, Ex1.declB, Ex7.emb, dotProduct, Fin.sum_univ_succ]
    linarith
  · simp [Ex15.decl, Ex1.declB, Ex7.emb, dotProduct, Fin.sum_univ_succ]

theorem Ex15.stable {lMax kMax : Nat} {sched : Nat → List Nat} {mod : Model (Fin 1) (Fin 1) Bool (Fin 1) Rat}
    (h : Succeeded Ex15.lay Ex15.orc lMax kMax sched mod) : Spec.LinearStable mod := by
  intro st X hX
  obtain ⟨c, hm⟩ := genSys_ok h.perm h.gen
  have hkl := hm.kl
  simp only [Ex15.orc, Except.ok.injEq, Prod.mk.injEq] at hkl
  have hs0 : ∀ s, shockAt (0 : Fin 1 → Rat) s = 0 := fun s => by cases s <;> rfl
  have hstep : ∀ s, (∀ i, |X s i| ≤ 2/3 * |prev st X s (.inr 0)|) ∧ |X s (.inr 0)| ≤ 1/2 * |prev st X s (.inr 0)| := by
    intro s
    obtain ⟨r, h1, h2⟩ := hX s
    rw [tFunc_linear_eq h, hs0, ← hkl.1, ← hkl.2] at h1
    cases h1
    rw [h2]
    have := abs_nonneg (prev st X s (.inr 0))
    refine ⟨fun i => ?_, ?_⟩
    · rcases i with (_ | _) | i <;>
        simp [mulVec, dotProduct, Fintype.sum_sum_type, q0Of, Ex15.omg, Ex15.lam, abs_mul] <;> linarith
    · simp [mulVec, dotProduct, Fintype.sum_sum_type, q0Of, Ex15.omg, Ex15.lam, abs_mul]
  refine diesOut_of_geometric (C := |st (.inr 0)|) (q := 2/3) (by norm_num) (by norm_num) fun s => ?_
  induction s with
  | zero =>
    intro i
    rw [pow_zero, mul_one]
    have := abs_nonneg (st (.inr 0))
    have h1 : |X 0 i| ≤ 2/3 * |st (.inr 0)| := (hstep 0).1 i
    linarith
  | succ s ih =>
    intro i
    rw [pow_succ]
    have h2 := ih (.inr 0)
    have h1 : |X (s+1) i| ≤ 2/3 * |X s (.inr 0)| := (hstep (s+1)).1 i
    linarith

/-- **C178**: the hypotheses are met; with the shock `-9/4` the constraint binds. -/
theorem C178_hypotheses_met : ∃ mod mod', Succeeded Ex1.lay Ex1.orc 2 30 (serial 30) mod ∧
    Succeeded Ex15.lay Ex15.orc 2 30 (serial 30) mod' ∧ Spec.WithoutNames Ex7.emb Ex15.Def Ex15.decl Ex1.decl ∧
    Spec.SameLinearNamed Ex7.emb Ex15.Def Ex1.lay mod Ex15.lay mod' ∧ Spec.LagsNotExpected Ex1.decl ∧ Spec.LagsNotExpected Ex15.decl ∧
    Ex1.decl.rb Ex1.decl.cvar ≠ 1 ∧ Ex15.decl.rb Ex15.decl.cvar = Ex1.decl.rb Ex1.decl.cvar ∧
    Spec.SamePast Ex7.emb Ex15.Def Ex1.lay Ex15.lay 0 0 ∧
    ∃ r, tFunc mod 0 (fun _ => -9/4) .none false = .ok r ∧ r.flag = 0 ∧ r.k = 1 := by
  obtain ⟨mod, h⟩ := Ex1.succeeds 2 30 (Ex1.serial_perm 2 30)
  obtain ⟨mod', h'⟩ := Ex15.succeeds 2 30 (Ex1.serial_perm 2 30)
  have hs1 : Ex1.decl.rb Ex1.decl.cvar ≠ 1 := by show (if (1 : Fin 2) = 0 then (1 : Rat) else 0) ≠ 1; simp
  have hs2 : Ex15.decl.rb Ex15.decl.cvar = Ex1.decl.rb Ex1.decl.cvar := by
    show (if (2 : Fin 3) = 1 then (4/3 : Rat) else 0) = (if (1 : Fin 2) = 0 then (1 : Rat) else 0); simp
  obtain ⟨r, g1, g2, g3, g4, -, -⟩ := Ex1.binding_run 2 30 (by omega) (by omega) h
  have z15 : ∀ v, lagVal Ex15.lay 0 v = 0 := fun v => by
    unfold lagVal
    rw [if_neg (Ex15.not_inall v)]
    unfold Layout.val
    simp
  refine ⟨mod, mod', h, h', Ex15.withoutNames,
    C178_linear_of_stable h h' Ex15.withoutNames (.of_rc rfl) (.of_rc rfl) hs1 hs2 (Ex1.stable h) (Ex15.stable h') Ex1.determinate', .of_rc rfl,
    .of_rc rfl, hs1, hs2, ⟨?_, ?_⟩, r, g1, g4, g3⟩
  · funext v
    show lagVal Ex1.lay 0 v = lagVal Ex15.lay 0 (Ex7.emb v)
    rw [z15]
    unfold lagVal
    rw [if_neg (Ex1.not_inall v)]
    unfold Layout.val
    simp
  · unfold Ex15.Def
    rw [z15, z15, mul_zero]

/-- **C178**: the two models agree over every sequence of shocks, and `w` is `3/4 y` in every period. -/
example (es : List (Fin 1 → Rat)) : ∃ mod mod' res res', Succeeded Ex1.lay Ex1.orc 2 30 (serial 30) mod ∧
    Succeeded Ex15.lay Ex15.orc 2 30 (serial 30) mod' ∧ simLoop mod false 0 es = .ok res ∧ simLoop mod' false 0 es = .ok res' ∧
    res.LK = res'.LK ∧ res.flag = res'.flag ∧
    res.X.tail.map (fun x v => Ex1.lay.val x (.inl v)) = res'.X.tail.map (fun x v => Ex15.lay.val x (.inl (Ex7.emb v))) ∧
    ∀ x ∈ res'.X.tail, Ex15.lay.val x (.inl 1) = 3/4 * Ex15.lay.val x (.inl 0) := by
  obtain ⟨mod, mod', h, h', h1, h2, h3, h4, h5, h6, h7, -⟩ := C178_hypotheses_met
  obtain ⟨res, res', g⟩ := C178_simulation h h' (by omega) h1 h2 h3 h4 h5 h6 es h7
  exact ⟨mod, mod', res, res', h, h', g⟩

/-- The equations of `Ex1` with the name, and written out: the two ways of declaring them give what the examples declare. -/
def Ex15.named : Declared (Fin 1) (Fin 2 ⊕ Fin 1) (Fin 1) Rat where
  A := fun _ v => if v = .inl 1 then 1 else 0
  B := fun _ v => if v = .inl 0 then 1 else 0
  C := fun _ v => if v = .inr 0 then -1 else 0
  D := fun _ _ => -1
  cvar := .inl 1
  rb := fun v => if v = .inr 0 then 4/3 else 0
  rc := 0
  rd := 0
  xbar := -1

theorem C178_written_out : Ex15.named.writtenOut (fun _ v => if v = 0 then 3/4 else 0) 1 = Ex1.decl := by
  unfold Spec.Declared.writtenOut Ex1.decl Ex1.declB Ex15.named
  congr 1
  · exact Matrix.ext fun i v => by fin_cases v <;> simp
  · exact Matrix.ext fun i v => by fin_cases v <;> simp
  · exact Matrix.ext fun i v => by fin_cases v <;> norm_num <;> exact Sum.inl_ne_inr
  · exact funext fun v => by fin_cases v <;> norm_num <;> exact Sum.inl_ne_inr
  · exact funext fun v => by fin_cases v <;> norm_num

end Pydsge
