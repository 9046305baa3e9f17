import Verif.Props.Tested

/-!
# C105: tables of any two sizes

engine.py:53-180, 267-330: `l_max` and `k_max` decide which spells are tried, and in which order. Where equilibria are unique, this has no influence on what is found.
-/

set_option autoImplicit false
set_option linter.unusedSectionVars false
set_option linter.unusedSimpArgs false

namespace Pydsge

open Matrix Pydsge.Engine Pydsge.Spec Pydsge.Tools Pydsge.GenSys

variable {E ν ε o K : Type} [Fintype E] [Fintype ν] [Fintype ε] [Fintype o]
  [DecidableEq E] [DecidableEq ν] [DecidableEq ε] [Field K] [LinearOrder K] [IsStrictOrderedRing K]
variable {H z p : Type} [DecidableEq H] [Fintype H] [Fintype z] [Fintype p] [DecidableEq z] [DecidableEq p]
section Yaml
variable {D : Declared E ν ε K} {Z0 : Matrix o ν K} {Z1 : o → K} {tol : K} [DecidablePred (inall tol (yaml D Z0 Z1))]
  {lay : Layout tol (yaml D Z0 Z1) H z p} {orc : Oracle (Rows E H ε) (z ⊕ ε) p K} {lMax kMax lMax' kMax' : Nat}
  {sched sched' : Nat → List Nat} {mod mod' : Model z ε p o K}

section
variable (h : Succeeded lay orc lMax kMax sched mod) (h' : Succeeded lay orc lMax' kMax' sched' mod') (hlag : Spec.LagsNotExpected D)
include h h' hlag

/-- The linear solution does not depend on the sizes of the tables. -/
theorem joins_bounds {st : p ⊕ z → K} {eps : ε → K} {x : Nat → ν → K} {n : Nat} (hj : Spec.JoinsLinear lay mod st eps x n) :
    Spec.JoinsLinear lay mod' st eps x n := by
  obtain ⟨c', hm'⟩ := genSys_ok h'.perm h'.gen
  have := h'.states
  intro s hs
  obtain ⟨r, h1, h2⟩ := hj s hs
  have g2 := fun st eps => tFunc_pair hm' st eps (Nat.zero_le lMax') (Nat.zero_le kMax')
  simp only [Nat.cast_zero] at g2
  refine ⟨_, g2 _ _, fun v => ?_⟩
  rw [h2]
  exact sameLinear_bounds h h' hlag _ _ _ _ _ rfl h1 (g2 _ _) v

variable (hself : D.rb D.cvar ≠ 1)
include hself

/-- Paths with the same spell do not depend on the sizes of the tables. -/
theorem expectedPath_bounds {l k : Nat} (hl : l ≤ lMax) (hk : k ≤ kMax) (hl' : l ≤ lMax') (hk' : k ≤ kMax') {st : p ⊕ z → K} {eps : ε → K}
    {X : Nat → p ⊕ z → K} (hX : ExpectedPath mod l k st eps X) : ExpectedPath mod' l k st eps X := by
  obtain ⟨x, h1, h2, h3⟩ := (C148_characterisation h hlag hself hl hk st eps X).1 hX
  exact (C148_characterisation h' hlag hself hl' hk' st eps X).2 ⟨x, h1, h2, joins_bounds h h' hlag h3⟩

end

/-- A transition without an error gives the first state of an equilibrium. -/
theorem reported_state (h : Succeeded lay orc lMax kMax sched mod) (hk1 : 1 ≤ kMax) (hlag : Spec.LagsNotExpected D) (hself : D.rb D.cvar ≠ 1)
    (hF : Spec.FlagMeansEquilibrium lay mod) {st : p ⊕ z → K} {e : ε → K} {r : Step z p K} (hr : tFunc mod st e .none false = .ok r) (hf : r.flag = 0) :
    ∃ x, Spec.EndsInEquilibrium lay mod st e x ∧ r.state = stateOf lay (x 0) ∧
      Spec.OneSpellOf D.xbar (Spec.ruleAt (Spec.asSolved D) (lagVal lay st) e x) r.l r.k := by
  obtain ⟨X, hX, hXe⟩ := hF st e r hr hf
  obtain ⟨hl, hk⟩ := found_inside h hk1 hr
  obtain ⟨x, hx1, hx2, hx3⟩ := (C148_characterisation h hlag hself hl hk st e X).1 hX
  have hdecl : Spec.declared lay X = x := by
    funext s v
    unfold Spec.declared
    rw [hx1, val_stateOf lay h.square]
    rfl
  obtain ⟨e1, e2⟩ := equilibrium_spell h hlag hself hl hk hX hXe
  rw [hdecl] at hXe e1 e2
  refine ⟨x, ⟨hXe, _, hx3⟩, ?_, ⟨fun s hs => e1 s hs, fun s h1 h2 => (e2 s ⟨h1, h2⟩).2⟩⟩
  obtain ⟨r1, g1, g2, _, _⟩ := C14_impose_found_equilibrium h hk1 st e r hr
  obtain ⟨r2, g5, g6⟩ := hX 0
  rw [elapsed_zero] at g5
  have : r1 = r2 := Except.ok.inj (g1.symm.trans g5)
  rw [← g2, this, ← hx1, g6]

section
variable (h : Succeeded lay orc lMax kMax sched mod) (h' : Succeeded lay orc lMax' kMax' sched' mod') (hk1 : 1 ≤ kMax) (hk1' : 1 ≤ kMax')
  (hlag : Spec.LagsNotExpected D) (hself : D.rb D.cvar ≠ 1) (hP : Spec.NoReversalOf lay mod')
  (hF : Spec.FlagMeansEquilibrium lay mod) (hF' : Spec.FlagMeansEquilibrium lay mod')
include h h' hk1 hk1' hlag hself hP hF hF'

/-- **C105** for tables of any two sizes, neither of which need be the larger one: where equilibria are unique and what is reported without an error is an equilibrium, the new
state is the same if both report no error, also without a spell and with spells that begin later. -/
theorem C105_any_tables {st : p ⊕ z → K} {eps : ε → K} {r r' : Step z p K} (hr : tFunc mod st eps .none false = .ok r) (hf : r.flag = 0)
    (hr' : tFunc mod' st eps .none false = .ok r') (hf' : r'.flag = 0) : r'.state = r.state := by
  obtain ⟨x, ⟨hx, n, hn⟩, hs, -⟩ := reported_state h hk1 hlag hself hF hr hf
  obtain ⟨x', ⟨hx', n', hn'⟩, hs', -⟩ := reported_state h' hk1' hlag hself hF' hr' hf'
  rw [hs, hs', C173_unique h' hP hx hx' (joins_bounds h h' hlag hn) hn']

/-- **C105**: and larger tables report no error wherever smaller ones do not. -/
theorem C105_larger_find (hl1' : 1 ≤ lMax') (hL : lMax ≤ lMax') (hK : kMax ≤ kMax') (hL' : lMax' + 1 ≤ 999) {st : p ⊕ z → K} {eps : ε → K}
    {r : Step z p K} (hr : tFunc mod st eps .none false = .ok r) (hf : r.flag = 0) :
    ∃ r', tFunc mod' st eps .none false = .ok r' ∧ r'.flag = 0 ∧ r'.state = r.state := by
  obtain ⟨x, ⟨hx, n, hn⟩, hs, ho⟩ := reported_state h hk1 hlag hself hF hr hf
  obtain ⟨hl, hk⟩ := found_inside h hk1 hr
  obtain ⟨r', hr', hf'⟩ := C173_found h' hk1' hl1' hL' hlag hself (hl.trans hL) (hk.trans hK) hx ho (joins_bounds h h' hlag hn)
  exact ⟨r', hr', hf', C105_any_tables h h' hk1 hk1' hlag hself hP hF hF' hr hf hr' hf'⟩

/-- **C105** for whole simulations: a simulation without an error is the same with all larger tables. -/
theorem C105_simulate (hl1' : 1 ≤ lMax') (hL : lMax ≤ lMax') (hK : kMax ≤ kMax') (hL' : lMax' + 1 ≤ 999) (es : List (ε → K)) :
    ∀ {st : p ⊕ z → K} {res : SimRes z p K}, simLoop mod false st es = .ok res → res.flag = 0 →
      ∃ res', simLoop mod' false st es = .ok res' ∧ res'.flag = 0 ∧ res'.X = res.X := by
  induction es with
  | nil =>
    intro st res h1 _
    cases h1
    exact ⟨_, rfl, rfl, rfl⟩
  | cons e es ih =>
    intro st res h1 hf
    unfold simLoop at h1 ⊢
    generalize hr : tFunc mod st e .none false = x at h1
    rcases x with err | r
    · cases h1
    simp only at h1
    generalize hx : simLoop mod false r.state es = y at h1
    rcases y with err | y
    · cases h1
    cases h1
    simp only [Nat.or_eq_zero_iff] at hf
    obtain ⟨r', a1, a2, a3⟩ := C105_larger_find h h' hk1 hk1' hlag hself hP hF hF' hl1' hL hK hL' hr hf.1
    obtain ⟨y', b1, b2, b3⟩ := ih hx hf.2
    rw [a1]
    simp only [a3, b1]
    exact ⟨_, rfl, by simp only [a2, b2, Nat.or_zero], by simp only [b3]⟩

end
end Yaml

/-- **C105**, hypotheses for tables of any two sizes: after the shock `-5` both report two periods at the bound. -/
theorem C105_any_hypotheses_met (lMax kMax lMax' kMax' : Nat) (hk : 2 ≤ kMax) (hk' : 2 ≤ kMax') (hL : lMax + 1 ≤ 999) (hL' : lMax' + 1 ≤ 999) : ∃ mod mod',
    Succeeded Ex17.lay Ex17.orc lMax kMax (serial kMax) mod ∧ Succeeded Ex17.lay Ex17.orc lMax' kMax' (serial kMax') mod' ∧
    Spec.LagsNotExpected Ex17.decl ∧ Ex17.decl.rb Ex17.decl.cvar ≠ 1 ∧ Spec.NoReversalOf Ex17.lay mod' ∧
    Spec.FlagMeansEquilibrium Ex17.lay mod ∧ Spec.FlagMeansEquilibrium Ex17.lay mod' ∧
    (∃ r, tFunc mod 0 (fun _ => -5) .none false = .ok r ∧ r.flag = 0 ∧ r.k = 2) ∧
    ∃ r, tFunc mod' 0 (fun _ => -5) .none false = .ok r ∧ r.flag = 0 ∧ r.k = 2 := by
  obtain ⟨mod, h⟩ := Ex17.succeeds (b := -1) lMax kMax (fun _ _ => List.Perm.refl _)
  obtain ⟨mod', h'⟩ := Ex17.succeeds (b := -1) lMax' kMax' (fun _ _ => List.Perm.refl _)
  obtain ⟨r, c1, c2, c3, c4, -⟩ := Ex17.run h (k := 2) (by omega) hk hL (st := 0) (eps := fun _ => -5) (by norm_num) (by norm_num)
  obtain ⟨r', d1, d2, d3, d4, -⟩ := Ex17.run h' (k := 2) (by omega) hk' hL' (st := 0) (eps := fun _ => -5) (by norm_num) (by norm_num)
  exact ⟨mod, mod', h, h', Ex17.lagsNotExpected, Ex17.self_ne, Ex17.noReversalOf, Ex17.flagMeansEquilibrium h (by omega), Ex17.flagMeansEquilibrium h' (by omega),
    ⟨r, c1, c2, c4⟩, ⟨r', d1, d2, d4⟩⟩

end Pydsge
