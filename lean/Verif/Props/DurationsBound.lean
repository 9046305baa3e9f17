import Verif.Props.LowerBound
import Verif.Props.Durations

/-!
# C192: with a lower bound spells are shorter
-/

set_option autoImplicit false
set_option linter.unusedSectionVars false
set_option linter.unusedSimpArgs false

namespace Pydsge

open Matrix Pydsge.Engine Pydsge.Spec Pydsge.Tools Pydsge.GenSys

variable {E ν ε o K : Type} [Fintype E] [Fintype ν] [Fintype ε] [Fintype o]
  [DecidableEq E] [DecidableEq ν] [DecidableEq ε] [Field K] [LinearOrder K] [IsStrictOrderedRing K]
variable {H z p : Type} [DecidableEq H] [Fintype H] [Fintype z] [Fintype p] [DecidableEq z] [DecidableEq p]
variable {o' H' z' p' : Type} [Fintype o'] [DecidableEq H'] [Fintype H'] [Fintype z'] [Fintype p'] [DecidableEq z'] [DecidableEq p']
section Yaml
variable {D : Declared E ν ε K} {Z0 : Matrix o ν K} {Z1 : o → K} {tol : K} [DecidablePred (inall tol (yaml D Z0 Z1))]
  {lay : Layout tol (yaml D Z0 Z1) H z p}
  {orc : Oracle (Rows E H ε) (z ⊕ ε) p K} {lMax kMax : Nat} {sched : Nat → List Nat} {mod : Model z ε p o K}
variable {b : K} {Z0' : Matrix o' ν K} {Z1' : o' → K} {tol' : K} [DecidablePred (inall tol' (yaml (D.withBound b) Z0' Z1'))]
  {lay' : Layout tol' (yaml (D.withBound b) Z0' Z1') H' z' p'}
  {orc' : Oracle (Rows E H' ε) (z' ⊕ ε) p' K} {lMax' kMax' : Nat} {sched' : Nat → List Nat} {mod' : Model z' ε p' o' K}

section
variable (h : Succeeded lay orc lMax kMax sched mod) (h' : Succeeded lay' orc' lMax' kMax' sched' mod')
  (hlin : Spec.SameLinearCore id id lay mod lay' mod') (hlag : Spec.LagsNotExpected D) (hself : D.rb D.cvar ≠ 1) (hb : b ≤ D.xbar)
  (hP' : Spec.NoReversalOf lay' mod') (hZ' : Spec.LowersElsewhere lay' mod')
include h h' hlin hlag hself hb hP' hZ'

/-- **C192.** In a period in which the constraint adds nothing with the higher bound, the constrained variable is not lower with the lower bound. -/
theorem C192_bound_constrained {st : p ⊕ z → K} {st' : p' ⊕ z' → K} {e e' : ε → K} {x x' : Nat → ν → K}
    (hx : Spec.EndsInEquilibrium lay mod st e x) (hx' : Spec.EndsInEquilibrium lay' mod' st' e' x') {Y : Nat → p ⊕ z → K} {Y' : Nat → p' ⊕ z' → K}
    (hY : ExpectedPath mod 0 0 st e Y) (hY' : ExpectedPath mod' 0 0 st' e' Y')
    (hc : ∀ s, lay.val (Y s) (.inl D.cvar) ≤ lay'.val (Y' s) (.inl D.cvar)) {s : Nat}
    (hs : Spec.lift D (lagVal lay st) e x s = 0) : x s D.cvar ≤ x' s D.cvar := by
  have hw := C146_adds_less h h' hlin hlag hself hb hP' hZ' hx hx' hY hY' hc
  have n0' := lift_nonneg hx'.equilibrium s
  have h1 := announced_comb h' hlag hself hP' (announced_transfer h h' hlin (lift_response h hlag hself hx hY))
    (lift_response h' hlag hself hx' hY') (-1)
  have h2 := hZ' _ _ s h1 (fun s => by have := hw s; linarith) (by have := hw s; linarith)
  have h3 := hc s
  have h4 : x s D.cvar - lay.val (Y s) (.inl D.cvar) + -1 * (x' s D.cvar - lay'.val (Y' s) (.inl D.cvar)) ≤ 0 := h2
  linarith

variable (hF : Spec.FlagMeansEquilibrium lay mod) (hF' : Spec.FlagMeansEquilibrium lay' mod')
include hF hF'

/-- **C192.** Two models differ in the bound only. With the lower bound, the spell that is reported ends no later and begins no earlier. -/
theorem C192_bound (hk1 : 1 ≤ kMax) (hk1' : 1 ≤ kMax') (hl1' : 1 ≤ lMax') (hL' : lMax' + 1 ≤ 999) {st : p ⊕ z → K} {st' : p' ⊕ z' → K}
    {e e' : ε → K} {r : Step z p K} {r' : Step z' p' K}
    (hr : tFunc mod st e .none false = .ok r) (hf : r.flag = 0) (hr' : tFunc mod' st' e' .none false = .ok r') (hf' : r'.flag = 0)
    {Y : Nat → p ⊕ z → K} {Y' : Nat → p' ⊕ z' → K} (hY : ExpectedPath mod 0 0 st e Y) (hY' : ExpectedPath mod' 0 0 st' e' Y')
    (hc : ∀ s, lay.val (Y s) (.inl D.cvar) ≤ lay'.val (Y' s) (.inl D.cvar))
    (hg : 2 ≤ r'.k ∨ ∃ X, ExpectedPath mod' r'.l r'.k st' e' X ∧
      ∃ s, Spec.ruleAt (Spec.asSolved D) (lagVal lay' st') e' (Spec.declared lay' X) s < b) :
    r'.l + r'.k ≤ r.l + r.k ∧ (b < D.xbar → r.l ≤ r'.l) := by
  obtain ⟨c', hm'⟩ := genSys_ok h'.perm h'.gen
  have hlag' : Spec.LagsNotExpected (D.withBound b) := hlag
  have hfw' := noLagFwd_of_not_expected (Z0 := Z0') (Z1 := Z1') hlag'
  obtain ⟨X, hX, hE⟩ := hF st e r hr hf
  obtain ⟨X', hX', hE'⟩ := hF' st' e' r' hr' hf'
  obtain ⟨hl, hk⟩ := found_inside h hk1 hr
  obtain ⟨hl', hk'⟩ := found_inside h' hk1' hr'
  have hx : Spec.EndsInEquilibrium lay mod st e (Spec.declared lay X) := by
    obtain ⟨x, hx1, hx2, hx3⟩ := (C148_characterisation h hlag hself hl hk st e X).1 hX
    have hdecl : Spec.declared lay X = x := by
      funext s v
      unfold Spec.declared
      rw [hx1, val_stateOf lay h.square]
      rfl
    refine ⟨hE, r.l + r.k, ?_⟩
    rw [hdecl]
    exact hx3
  have hx' : Spec.EndsInEquilibrium lay' mod' st' e' (Spec.declared lay' X') := by
    obtain ⟨x, hx1, hx2, hx3⟩ := (C148_characterisation h' hlag' hself hl' hk' st' e' X').1 hX'
    have hdecl : Spec.declared lay' X' = x := by
      funext s v
      unfold Spec.declared
      rw [hx1, val_stateOf lay' h'.square]
      rfl
    refine ⟨hE', r'.l + r'.k, ?_⟩
    rw [hdecl]
    exact hx3
  obtain ⟨e1, e2⟩ := equilibrium_spell h hlag hself hl hk hX hE
  obtain ⟨e1', e2'⟩ := equilibrium_spell h' hlag' hself hl' hk' hX' hE'
  have hlast : 1 ≤ r'.k ∧ Spec.ruleAt (Spec.asSolved D) (lagVal lay' st') e' (Spec.declared lay' X') (r'.l + r'.k - 1) < b := by
    by_cases h2 : 2 ≤ r'.k
    · exact ⟨by omega, C192_last_binds h' hlag' hself hk1' hl1' hL' hr' hf' hX' hE' h2⟩
    · rcases hg with h3 | ⟨X2, hX2, s, hs⟩
      · exact absurd h3 h2
      · have : X2 = X' := by
          have g1 := (expectedPath_iff hm' h'.orc h'.noTiny h'.square h'.states hfw' hl' hk' st' e' X2).1 hX2
          have g2 := (expectedPath_iff hm' h'.orc h'.noTiny h'.square h'.states hfw' hl' hk' st' e' X').1 hX'
          funext s
          rw [g1, g2]
        subst this
        obtain ⟨b1, b2⟩ := e1' s hs
        have : s = r'.l + r'.k - 1 := by omega
        exact ⟨by omega, this ▸ hs⟩
  have hw := C146_adds_less h h' hlin hlag hself hb hP' hZ' hx hx' hY hY' hc
  have hbind : BindsAt r.l r.k (r'.l + r'.k - 1) := by
    apply e1
    have h1 : Spec.declared lay' X' (r'.l + r'.k - 1) D.cvar = b := (e2' _ ⟨by omega, by omega⟩).1
    have h2 : 0 < Spec.lift D (lagVal lay st) e (Spec.declared lay X) (r'.l + r'.k - 1) := by
      refine lt_of_lt_of_le ?_ (hw _)
      have : Spec.lift (D.withBound b) (lagVal lay' st') e' (Spec.declared lay' X') (r'.l + r'.k - 1) =
          Spec.declared lay' X' (r'.l + r'.k - 1) D.cvar - Spec.ruleAt (Spec.asSolved D) (lagVal lay' st') e' (Spec.declared lay' X') (r'.l + r'.k - 1) := rfl
      rw [this, h1]
      exact sub_pos.2 hlast.2
    have h3 := bound_of_lift hx.equilibrium h2
    unfold Spec.lift at h2
    rw [h3] at h2
    exact sub_pos.1 h2
  obtain ⟨b1, b2⟩ := hbind
  refine ⟨by omega, fun hlt => ?_⟩
  by_contra hn
  rw [not_le] at hn
  have h4 := rule_outside h hlag hself hl hk hX (s := r'.l) (by unfold BindsAt; omega)
  have h0 : Spec.lift D (lagVal lay st) e (Spec.declared lay X) r'.l = 0 := by
    unfold Spec.lift
    rw [← h4, sub_self]
  have h5 := C192_bound_constrained h h' hlin hlag hself hb hP' hZ' hx hx' hY hY' hc h0
  have h6 : Spec.declared lay' X' r'.l D.cvar = b := (e2' _ ⟨le_rfl, by omega⟩).1
  have h7 : Spec.declared lay X r'.l D.cvar = max D.xbar _ := hE.con r'.l
  have h8 : D.xbar ≤ Spec.declared lay X r'.l D.cvar := by rw [h7]; exact le_max_left _ _
  rw [h6] at h5
  exact absurd (h8.trans h5) (not_le.2 hlt)

end
end Yaml
end Pydsge
