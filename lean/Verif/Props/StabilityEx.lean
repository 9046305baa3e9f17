import Verif.Examples.Ex6Run
import Verif.Props.TimeConsEx

/-!
# C131, C132: cases that meet the hypotheses, and a model that does not return
-/

set_option autoImplicit false
set_option linter.unusedSimpArgs false
set_option linter.unusedSectionVars false

namespace Pydsge

open Matrix Pydsge.Engine Pydsge.Spec Pydsge.Tools Pydsge.GenSys

/-- The model of `Ex1` is stable. -/
theorem Ex1.stable {lMax kMax : Nat} {sched : Nat → List Nat} {mod : Model (Fin 1) (Fin 1) (Fin 1) (Fin 1) Rat}
    (h : Succeeded Ex1.lay Ex1.orc lMax kMax sched mod) : Spec.LinearStable mod := by
  intro st X hX
  obtain ⟨c, hm⟩ := genSys_ok h.perm h.gen
  have hkl := hm.kl
  simp only [Ex1.orc, Except.ok.injEq, Prod.mk.injEq] at hkl
  have hs0 : ∀ s, shockAt (0 : Fin 1 → Rat) s = 0 := fun s => by cases s <;> rfl
  have hstep : ∀ s i, X s i = 1/2 * prev st X s (.inr 0) := by
    intro s i
    obtain ⟨r, h1, h2⟩ := hX s
    rw [tFunc_linear_eq h, hs0, ← hkl.1, ← hkl.2] at h1
    cases h1
    rw [h2]
    rcases i with i | i <;> simp [mulVec, dotProduct, Fintype.sum_sum_type, q0Of, Ex1.omg, Ex1.lam]
  refine diesOut_of_geometric (C := |st (.inr 0)|) (q := 1/2) (by norm_num) (by norm_num) fun s => ?_
  induction s with
  | zero =>
    intro i
    rw [hstep, abs_mul, abs_of_pos (by norm_num : (0:Rat) < 1/2), pow_zero, mul_one]
    have := abs_nonneg (st (.inr 0))
    show 1/2 * |st (.inr 0)| ≤ _
    linarith
  | succ s ih =>
    intro i
    rw [hstep, abs_mul, abs_of_pos (by norm_num : (0:Rat) < 1/2), pow_succ]
    have := ih (.inr 0)
    show 1/2 * |X s (.inr 0)| ≤ _
    linarith

/-- **C131**: the hypotheses are met by a model in which the constraint does bind after a large shock. -/
theorem C131_hypotheses_met : ∃ mod, Succeeded Ex1.lay Ex1.orc 1 2 (serial 2) mod ∧ (Ex1.inp').xbar < 0 ∧ Spec.LinearStable mod ∧
    ∃ r, tFunc mod 0 (fun _ => -4) .none false = .ok r ∧ r.k = 2 ∧ tFunc mod 0 (fun _ => -4) .none true ≠ .ok r := by
  obtain ⟨mod, h⟩ := Ex1.succeeds 1 2 (Ex1.serial_perm 1 2)
  refine ⟨mod, h, by norm_num [Ex1.inp', yaml, Input.ofYaml, Ex1.decl, Ex1.declB], Ex1.stable h, ?_⟩
  obtain ⟨r, X, h1, _, _, h2, _⟩ := C116_hypotheses_met h
  refine ⟨r, h1, h2, fun he => ?_⟩
  rw [tFunc_linear_eq h] at he
  cases he
  simp at h2

/-- **C132**: the hypotheses are met, with a spell of two periods. -/
example {sched : Nat → List Nat} {mod : Model (Fin 1) (Fin 1) (Fin 1) (Fin 1) Rat} (h : Succeeded Ex1.lay Ex1.orc 1 2 sched mod) :
    Spec.IrfsReturn mod [((0 : Fin 1), -4, (0 : Int))] 0 := by
  obtain ⟨r, X, h1, h2, _, _, h3, h4, h5, _⟩ := C116_hypotheses_met h
  exact C132_irfs_return_partial h (Ex1.stable h) (by omega) (by omega) rfl rfl 0 _ (fun _ => -4) (fun t => (shocksAt_iff _ _ _).2 (shkVec_single _ t).symm) h1 h2 h3 h4 h5

/-- **C132** (fails in general): a model that returns to its steady state without the constraint need not do so with it.  In the model of `Ex6`,
after a shock of `-13` the search finds no equilibrium in any period, whatever the size of the tables, and the impulse response falls without
bound. -/
theorem C132_irfs_return_refuted {lMax kMax : Nat} {sched : Nat → List Nat} {mod : Model (Fin 1) (Fin 1) Bool (Fin 1) Rat}
    (h : Succeeded Ex6.lay Ex6.orc lMax kMax sched mod) (hk : 2 ≤ kMax) (hL : lMax + 1 ≤ 999) :
    Spec.LinearStable mod ∧ ¬ Spec.IrfsReturn mod [((0 : Fin 1), -13, (0 : Int))] 0 ∧
      ∀ T, ∃ xs, irfs mod ⟨[((0 : Fin 1), -13, (0 : Int))], .none, false, false⟩ 0 T = .ok xs ∧ xs.length = T ∧
        ∀ (t : Nat) s, xs[t]? = some s → s.state (.inr 0) ≤ -12 - (6/5) ^ (t + 1) ∧ s.k = kMax := by
  have main : ∀ T, ∃ xs, irfs mod ⟨[((0 : Fin 1), -13, (0 : Int))], .none, false, false⟩ 0 T = .ok xs ∧ xs.length = T ∧
        ∀ (t : Nat) s, xs[t]? = some s → s.state (.inr 0) ≤ -12 - (6/5) ^ (t + 1) ∧ s.k = kMax := by
    intro T
    let P : Nat → IrfState (Fin 1) Bool Rat → Prop := fun t s =>
      s.state (.inr 0) + shkVec [((0 : Fin 1), (-13 : Rat), (0 : Int))] t 0 ≤ -12 - (6/5) ^ t
    have hstep : ∀ t s, P t s → ∃ s', irfStep mod ⟨[((0 : Fin 1), -13, (0 : Int))], .none, false, false⟩ s t = .ok s' ∧
        s'.state (.inr 0) ≤ -12 - (6/5) ^ (t + 1) ∧ s'.k = kMax := by
      intro t s hs
      have hp : (1 : Rat) ≤ (6/5) ^ t := one_le_pow₀ (by norm_num)
      replace hs : s.state (.inr 0) + shkVec [((0 : Fin 1), (-13 : Rat), (0 : Int))] t 0 ≤ -12 - (6/5) ^ t := hs
      obtain ⟨r, h1, _, h3, _, h4⟩ := Ex6.explodes h hk hL s.state (shkVec [((0 : Fin 1), (-13 : Rat), (0 : Int))] t) (by linarith)
      rw [irfStep_free (.inl rfl), h1]
      refine ⟨_, rfl, ?_, h3⟩
      simp only
      rw [pow_succ]
      linarith
    have hnext : ∀ (t : Nat) (s : IrfState (Fin 1) Bool Rat), s.state (.inr 0) ≤ -12 - (6/5) ^ (t + 1) → P (t + 1) s := by
      intro t s hs
      have : shkVec [((0 : Fin 1), (-13 : Rat), (0 : Int))] (t + 1) 0 = 0 := by
        rw [shkVec_single]
        rfl
      show s.state (.inr 0) + _ ≤ _
      rw [this, add_zero]
      exact hs
    have h0 : P 0 ⟨0, 0, 0, 0, false⟩ := by
      show (0 : Rat) + shkVec [((0 : Fin 1), (-13 : Rat), (0 : Int))] 0 0 ≤ _
      rw [shkVec_single]
      norm_num [shockAt]
    obtain ⟨xs, hx⟩ := irfRun_exists (m := mod) (a := ⟨[((0 : Fin 1), -13, (0 : Int))], .none, false, false⟩) P
      (fun t s hs => by obtain ⟨s', g1, g2, _⟩ := hstep t s hs; exact ⟨s', g1, hnext t s' g2⟩) T 0 ⟨0, 0, 0, 0, false⟩ h0
    obtain ⟨g1, g2⟩ := irfRun_steps hx
    have key : ∀ t s, ((⟨0, 0, 0, 0, false⟩ : IrfState (Fin 1) Bool Rat) :: xs)[t]? = some s → P t s := by
      intro t
      induction t with
      | zero => intro s hs; cases hs; exact h0
      | succ t ih =>
        intro s hs
        rw [List.getElem?_cons_succ] at hs
        have hlt : t < xs.length := (List.getElem?_eq_some_iff.1 hs).1
        have hpre : ∃ s', ((⟨0, 0, 0, 0, false⟩ : IrfState (Fin 1) Bool Rat) :: xs)[t]? = some s' :=
          ⟨_, List.getElem?_eq_getElem (by simp; omega)⟩
        obtain ⟨s', hs'⟩ := hpre
        have e := g2 t s' s hs' hs
        obtain ⟨s'', f1, f2, _⟩ := hstep t s' (ih s' hs')
        rw [Nat.zero_add, f1] at e
        cases e
        exact hnext t s f2
    refine ⟨xs, hx, g1, fun t s hs => ?_⟩
    have hlt : t < xs.length := (List.getElem?_eq_some_iff.1 hs).1
    obtain ⟨s', hs'⟩ : ∃ s', ((⟨0, 0, 0, 0, false⟩ : IrfState (Fin 1) Bool Rat) :: xs)[t]? = some s' :=
      ⟨_, List.getElem?_eq_getElem (by simp; omega)⟩
    have e := g2 t s' s hs' hs
    obtain ⟨s'', f1, f2⟩ := hstep t s' (key t s' hs')
    rw [Nat.zero_add, f1] at e
    cases e
    exact f2
  refine ⟨Ex6.stable h, fun hret => ?_, main⟩
  obtain ⟨N, hN⟩ := hret 1 one_pos
  obtain ⟨xs, h1, h2, h3⟩ := main (N + 1)
  have hs : xs[N]? = some xs[N] := List.getElem?_eq_getElem (by omega)
  have g1 := hN (N + 1) xs h1 N _ le_rfl hs (.inr 0)
  have g2 := (h3 N _ hs).1
  have g3 := (abs_le.1 g1).1
  have : (0 : Rat) < (6/5) ^ (N + 1) := by positivity
  linarith

/-- The refutation is about a model that exists. -/
example : ∃ mod, Succeeded Ex6.lay Ex6.orc 3 17 (serial 17) mod := Ex6.succeeds 3 17 (Ex1.serial_perm 3 17)

end Pydsge
