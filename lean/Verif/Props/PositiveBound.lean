import Verif.Props.AsAnnounced
import Verif.Props.Dict

/-!
# C87: what a positive bound means

gensys.py:54-60 (`x_bar` of a dictionary is taken as it is).  At the steady state the constraint equation gives zero; with a positive bound the constraint is violated there.
-/

set_option autoImplicit false
set_option linter.unusedSectionVars false
set_option linter.unusedSimpArgs false

namespace Pydsge

open Matrix Pydsge.Engine Pydsge.Spec Pydsge.Tools Pydsge.GenSys

variable {E ν ε o K : Type} [Fintype E] [Fintype ν] [Fintype ε] [Fintype o]
  [DecidableEq E] [DecidableEq ν] [DecidableEq ε] [Field K] [LinearOrder K] [IsStrictOrderedRing K]
variable {H z p : Type} [DecidableEq H] [Fintype H] [Fintype z] [Fintype p] [DecidableEq z] [DecidableEq p]
section Yaml
variable {D : Declared E ν ε K} {Z0 : Matrix o ν K} {Z1 : o → K} {tol : K} [DecidablePred (inall tol (yaml D Z0 Z1))]
  {lay : Layout tol (yaml D Z0 Z1) H z p} {orc : Oracle (Rows E H ε) (z ⊕ ε) p K} {lMax kMax : Nat}
  {sched : Nat → List Nat} {mod : Model z ε p o K}

/-- The declared variables of a path that converges to zero do so, too. -/
theorem declared_diesOut (h : Succeeded lay orc lMax kMax sched mod) {X : Nat → p ⊕ z → K} (hX : Spec.DiesOut X) : Spec.DiesOut (Spec.declared lay X) := by
  intro δ hδ
  obtain ⟨N, hN⟩ := hX δ hδ
  refine ⟨N, fun n hn v => ?_⟩
  obtain ⟨x, hx⟩ := (lay.names_bij h.square).2 (.inl v)
  unfold Spec.declared
  rw [← hx]
  rcases x with i | j
  · exact (congrArg _ (lay.val_z (X n) i)).trans_le (hN n hn (.inr i))
  · exact (congrArg _ (lay.val_p (X n) j)).trans_le (hN n hn (.inl j))

/-- **C87**: with a positive bound, no path that the code can report is an equilibrium, if the linear model is stable: whatever the state, the shock and the spell, the constraint is violated
in some period. -/
theorem C87_no_equilibrium (h : Succeeded lay orc lMax kMax sched mod) (hst : Spec.LinearStable mod) (hpos : 0 < D.xbar) {l k : Nat} {st : p ⊕ z → K} {eps : ε → K}
    {X : Nat → p ⊕ z → K} (hX : ExpectedPath mod l k st eps X) :
    ¬ Spec.RuleEquilibrium (Spec.asSolved D) (lagVal lay st) eps (Spec.declared lay X) ∧ ∃ N, ∀ n ≥ N, Spec.declared lay X n D.cvar < D.xbar := by
  obtain ⟨N, hN⟩ := declared_diesOut h (C132_expected_paths_return hst hX) (D.xbar / 2) (by linarith)
  have hlow : ∀ n ≥ N, Spec.declared lay X n D.cvar < D.xbar := fun n hn => by
    have := (le_abs_self _).trans (hN n hn D.cvar)
    linarith
  refine ⟨fun hE => ?_, N, hlow⟩
  have h1 : Spec.declared lay X N D.cvar = max D.xbar _ := hE.con N
  have h2 := hlow N le_rfl
  rw [h1] at h2
  exact absurd h2 (not_lt.2 (le_max_left _ _))

end Yaml

namespace Ex17

variable {b : Rat} {lMax kMax : Nat} {sched : Nat → List Nat} {mod : Model (Fin 1) (Fin 1) (Fin 1) (Fin 1) Rat}

/-- without a spell, `y` falls by one half in every period -/
theorem free_path (h : Succeeded (layB b) orc lMax kMax sched mod) {l : Nat} (hl : l ≤ lMax) {st : Fin 1 ⊕ Fin 1 → Rat} {X : Nat → Fin 1 ⊕ Fin 1 → Rat}
    (hX : ExpectedPath mod l 0 st 0 X) (s : Nat) : Spec.declared (layB b) X s 0 = st (.inr 0) * (1/2) ^ (s + 1) := by
  have hp := C148_paths_solve h lagsNotExpected self_ne hl (Nat.zero_le _) st 0 X hX
  have step : ∀ s, Spec.declared (layB b) X s 0 = 1/2 * base b st 0 (Spec.declared (layB b) X) s := by
    intro s
    have h1 : EqsHold (declB b) (lagVal (layB b) st) 0 (Spec.declared (layB b) X) s := hp.eqs s
    have h2 : Spec.declared (layB b) X s 1 = 3/4 * Spec.declared (layB b) X s 0 := by
      rw [← rule_eq (b := b) (xl := lagVal (layB b) st) (eps := 0)]
      exact (rule_iff (D := Spec.asSolved (declB b)) (self_ne (b := b)) (lagVal (layB b) st) 0 (Spec.declared (layB b) X) s).2
        (hp.slack s (by unfold BindsAt; omega))
    rw [eqs_iff, h2] at h1
    unfold base
    linarith
  induction s with
  | zero =>
    rw [step, base_zero]
    simp
    ring
  | succ s ih =>
    rw [step, base_succ, ih, pow_succ]
    ring

end Ex17

/-- **C87**: the hypotheses are met, and there is no error: with the bound 1, for all sizes of the tables there are states at which `t_func` reports a path without a spell and with flag 0. -/
theorem C87_flag_refuted (lMax kMax : Nat) (hk : 1 ≤ kMax) (hL : lMax + 1 ≤ 999) : ∃ mod,
    Succeeded (Ex17.layB 1) Ex17.orc lMax kMax (serial kMax) mod ∧ DictModel.xBar (some (Ex17.declB 1).xbar) = 1 ∧ 0 < (Ex17.declB 1).xbar ∧ Spec.LinearStable mod ∧
    ∃ st r X, tFunc mod st 0 .none false = .ok r ∧ r.flag = 0 ∧ ExpectedPath mod r.l r.k st 0 X ∧
      ¬ Spec.RuleEquilibrium (Spec.asSolved (Ex17.declB 1)) (lagVal (Ex17.layB 1) st) 0 (Spec.declared (Ex17.layB 1) X) := by
  obtain ⟨mod, h⟩ := Ex17.succeeds (b := 1) lMax kMax (fun _ _ => List.Perm.refl _)
  have hst := Ex17.linearStable h
  have hpos : 0 < (Ex17.declB 1).xbar := by show (0 : Rat) < 1; norm_num
  obtain ⟨c, hm⟩ := genSys_ok h.perm h.gen
  obtain ⟨M', hS⟩ := hm.eng
  have hz := h.states
  have hf' := noLagFwd_of_not_expected (Z0 := Ex17.Z0) (Z1 := Ex17.Z1) (Ex17.lagsNotExpected (b := 1))
  let st : Fin 1 ⊕ Fin 1 → Rat := fun _ => 2 * 2 ^ (lMax + 1)
  have hX := fun {l : Nat} (hl : l ≤ lMax) =>
    (expectedPath_iff hm h.orc h.noTiny h.square h.states hf' hl (Nat.zero_le kMax) st 0 (xPath c l 0 (q0Of st 0))).2 fun _ => rfl
  have hnb : NeverBinds (fun i l k => pathValue (ff (Ex17.layB 1)) c (q0Of st 0) l k (slotPeriod l k i)) mod.xbar (lMax + 1) := by
    intro j hj
    have hxb : mod.xbar = 1 := hm.xbar
    simp only [slotPeriod]
    rw [pathValue_rule h hm Ex17.lagsNotExpected Ex17.self_ne (by omega) (Nat.zero_le _) st 0, Ex17.rule_eq, Ex17.free_path h (by omega) (hX (by omega)), hxb]
    have e : (2 : Rat) ^ (lMax + 1) = 2 ^ (j + 1) * 2 ^ (lMax - j) := by rw [← pow_add]; congr 1; omega
    have h1 : (1 : Rat) ≤ 2 ^ (lMax - j) := one_le_pow₀ (by norm_num)
    have h2 : (2 : Rat) ^ (j + 1) * (1/2) ^ (j + 1) = 1 := by rw [← mul_pow]; norm_num
    show (1 : Rat) < 3/4 * (2 * 2 ^ (lMax + 1) * (1/2) ^ (j + 1))
    rw [e]
    have : 2 * (2 ^ (j + 1) * 2 ^ (lMax - j)) * (1/2 : Rat) ^ (j + 1) = 2 * 2 ^ (lMax - j) * (2 ^ (j + 1) * (1/2) ^ (j + 1)) := by ring
    rw [this, h2]
    linarith
  refine ⟨mod, h, rfl, hpos, hst, st, ?_⟩
  rcases findLk_spec (xbar := mod.xbar) (checkCnst_reads hS (q0Of st 0)) (by omega) hL (show 1 < kMax + 1 by omega) with ⟨_, h2⟩ | ⟨g, -⟩ | ⟨g, -⟩
  · exact ⟨_, _, tFunc_find hm st 0 h2 (Nat.zero_le _) (Nat.zero_le _), rfl, hX (Nat.zero_le _), (C87_no_equilibrium h hst hpos (hX (Nat.zero_le _))).1⟩
  · exact absurd hnb g
  · exact absurd hnb g

end Pydsge
