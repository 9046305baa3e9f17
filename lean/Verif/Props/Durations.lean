import Verif.Props.Compare
import Verif.Props.Edge

/-!
# C192: worse states and shocks mean longer spells
-/

set_option autoImplicit false
set_option linter.unusedSectionVars false
set_option linter.unusedSimpArgs false

namespace Pydsge

open Matrix Pydsge.Engine Pydsge.Spec Pydsge.Tools Pydsge.GenSys

variable {E ν ε o K : Type} [Fintype E] [Fintype ν] [Fintype ε] [Fintype o]
  [DecidableEq E] [DecidableEq ν] [DecidableEq ε] [Field K] [LinearOrder K] [IsStrictOrderedRing K]
variable {H z p : Type} [DecidableEq H] [Fintype H] [Fintype z] [Fintype p] [DecidableEq z] [DecidableEq p]
section Yaml
variable {D : Declared E ν ε K} {Z0 : Matrix o ν K} {Z1 : o → K} {tol : K} [DecidablePred (inall tol (yaml D Z0 Z1))]
  {lay : Layout tol (yaml D Z0 Z1) H z p}
  {orc : Oracle (Rows E H ε) (z ⊕ ε) p K} {lMax kMax : Nat} {sched : Nat → List Nat} {mod : Model z ε p o K}

section
variable (h : Succeeded lay orc lMax kMax sched mod) (hlag : Spec.LagsNotExpected D) (hself : D.rb D.cvar ≠ 1)
include h hlag hself

/-- The spell that is reported without an error is the first one whose path passes the tests. -/
theorem reported_first (hk1 : 1 ≤ kMax) (hL : lMax + 1 ≤ 999) {st : p ⊕ z → K} {eps : ε → K} {r : Step z p K}
    (hr : tFunc mod st eps .none false = .ok r) (hf : r.flag = 0) (hk0 : 1 ≤ r.k) {l k : Nat} (hl : l ≤ lMax) (hk : k ≤ kMax) (hkk : 1 ≤ k)
    {X : Nat → p ⊕ z → K} (hX : ExpectedPath mod l k st eps X)
    (hs : Spec.PassesTests D.xbar (Spec.ruleAt (Spec.asSolved D) (lagVal lay st) eps (Spec.declared lay X)) (lMax + 1) l k) :
    ¬ LexLt (l, k) (r.l, r.k) := by
  obtain ⟨c, hm⟩ := genSys_ok h.perm h.gen
  obtain ⟨M', hS⟩ := hm.eng
  have hz := h.states
  have hf' := noLagFwd_of_not_expected (Z0 := Z0) (Z1 := Z1) hlag
  have hXs : X = xPath c l k (q0Of st eps) := funext ((expectedPath_iff hm h.orc h.noTiny h.square h.states hf' hl hk st eps X).1 hX)
  subst hXs
  have hv : ∀ s, pathValue (ff lay) c (q0Of st eps) l k s =
      Spec.ruleAt (Spec.asSolved D) (lagVal lay st) eps (Spec.declared lay (xPath c l k (q0Of st eps))) s :=
    fun s => pathValue_rule h hm hlag hself hl hk st eps s
  have hxb : mod.xbar = D.xbar := hm.xbar
  have hc : Consistent (fun i l k => pathValue (ff lay) c (q0Of st eps) l k (slotPeriod l k i)) mod.xbar l k := by
    rcases hs with ⟨h1, _⟩ | ⟨h1, h2, h3, h4, h5, h6⟩
    · omega
    refine ⟨h1, fun g => ?_, fun g => ?_, ?_, ?_, fun g => ?_⟩ <;> simp only [slotPeriod, hv, hxb]
    · exact h2 g
    · exact h3 g
    · exact h6
    · exact h4
    · exact h5 g
  rcases findLk_spec (xbar := mod.xbar) (checkCnst_reads hS (q0Of st eps)) (by omega) hL (show 1 < kMax + 1 by omega) with
    ⟨_, h2⟩ | ⟨_, l', k', h1, h2⟩ | ⟨_, h1, _⟩
  · have := tFunc_find hm st eps h2 (Nat.zero_le _) (Nat.zero_le _)
    obtain rfl := Except.ok.inj (this.symm.trans hr)
    simp at hk0
  · obtain ⟨g1, g2, g3, g4⟩ := h1
    have := tFunc_find hm st eps h2 (by omega) (by omega)
    obtain rfl := Except.ok.inj (this.symm.trans hr)
    exact g4 l k (by omega) (by omega) hc
  · exact absurd hc (h1 l k (by omega) (by omega))

/-- Outside the spell the constrained variable has the value that the rule gives. -/
theorem rule_outside {l k : Nat} (hl : l ≤ lMax) (hk : k ≤ kMax) {st : p ⊕ z → K} {eps : ε → K} {X : Nat → p ⊕ z → K}
    (hX : ExpectedPath mod l k st eps X) {s : Nat} (hs : ¬ BindsAt l k s) :
    Spec.declared lay X s D.cvar = Spec.ruleAt (Spec.asSolved D) (lagVal lay st) eps (Spec.declared lay X) s :=
  (rule_iff (D := Spec.asSolved D) hself _ _ _ _).2 ((C148_paths_solve h hlag hself hl hk st eps X hX).slack s hs)

/-- On an equilibrium the rule is below the bound only within the spell, and not above it there. -/
theorem equilibrium_spell {l k : Nat} (hl : l ≤ lMax) (hk : k ≤ kMax) {st : p ⊕ z → K} {eps : ε → K} {X : Nat → p ⊕ z → K}
    (hX : ExpectedPath mod l k st eps X) (hE : Spec.RuleEquilibrium (Spec.asSolved D) (lagVal lay st) eps (Spec.declared lay X)) :
    (∀ s, Spec.ruleAt (Spec.asSolved D) (lagVal lay st) eps (Spec.declared lay X) s < D.xbar → BindsAt l k s) ∧
    ∀ s, BindsAt l k s → Spec.declared lay X s D.cvar = D.xbar ∧
      Spec.ruleAt (Spec.asSolved D) (lagVal lay st) eps (Spec.declared lay X) s ≤ D.xbar := by
  refine ⟨fun s hs => ?_, fun s hs => ?_⟩
  · by_contra hb
    have h1 := rule_outside h hlag hself hl hk hX hb
    have h2 : Spec.declared lay X s D.cvar = max D.xbar _ := hE.con s
    have := le_max_left D.xbar (Spec.ruleAt (Spec.asSolved D) (lagVal lay st) eps (Spec.declared lay X) s)
    rw [← h2, h1] at this
    exact absurd hs (not_lt.2 this)
  · have h1 : Spec.declared lay X s D.cvar = D.xbar := (C148_paths_solve h hlag hself hl hk st eps X hX).binding s hs
    have h2 : Spec.declared lay X s D.cvar = max D.xbar _ := hE.con s
    have := le_max_right D.xbar (Spec.ruleAt (Spec.asSolved D) (lagVal lay st) eps (Spec.declared lay X) s)
    rw [← h2, h1] at this
    exact ⟨h1, this⟩

/-- On an equilibrium, periods at the edges of the spell in which the rule gives the bound can be left out or added. -/
theorem equilibrium_respell (hl1 : 1 ≤ lMax) {l k : Nat} (hl : l ≤ lMax) (hk : k ≤ kMax) {st : p ⊕ z → K} {eps : ε → K} {X : Nat → p ⊕ z → K}
    (hX : ExpectedPath mod l k st eps X) {l' k' : Nat} (hl' : l' ≤ lMax) (hk' : k' ≤ kMax)
    (hb : ∀ s, ¬ (BindsAt l k s ↔ BindsAt l' k' s) → Spec.declared lay X s D.cvar = D.xbar ∧
      Spec.ruleAt (Spec.asSolved D) (lagVal lay st) eps (Spec.declared lay X) s = D.xbar) : ExpectedPath mod l' k' st eps X := by
  refine (C149_two_spells h hlag hself hl hk hl' hk' (.inl hl1) hX).2 fun s hs => ?_
  obtain ⟨h1, h2⟩ := hb s hs
  exact ⟨h1, ((rule_iff (D := Spec.asSolved D) hself _ _ _ s).1 (h1.trans h2.symm)).symm.trans h1⟩

/-- **C192.** In the last period of a spell of two and more periods that is reported without an error the constraint really binds: the rule is below the bound. -/
theorem C192_last_binds (hk1 : 1 ≤ kMax) (hl1 : 1 ≤ lMax) (hL : lMax + 1 ≤ 999) {st : p ⊕ z → K} {eps : ε → K} {r : Step z p K}
    (hr : tFunc mod st eps .none false = .ok r) (hf : r.flag = 0) {X : Nat → p ⊕ z → K} (hX : ExpectedPath mod r.l r.k st eps X)
    (hE : Spec.RuleEquilibrium (Spec.asSolved D) (lagVal lay st) eps (Spec.declared lay X)) (h2 : 2 ≤ r.k) :
    Spec.ruleAt (Spec.asSolved D) (lagVal lay st) eps (Spec.declared lay X) (r.l + r.k - 1) < D.xbar := by
  by_contra hge
  rw [not_lt] at hge
  obtain ⟨hl, hk⟩ := found_inside h hk1 hr
  obtain ⟨e1, e2⟩ := equilibrium_spell h hlag hself hl hk hX hE
  obtain ⟨-, hp⟩ := reported_passes h hk1 hlag hself hr hf hX
  have hlast := e2 (r.l + r.k - 1) ⟨by omega, by omega⟩
  have hX' : ExpectedPath mod r.l (r.k - 1) st eps X := by
    refine equilibrium_respell h hlag hself hl1 hl hk hX hl (by omega) fun s hs => ?_
    have : s = r.l + r.k - 1 := by
      by_contra hne
      apply hs
      unfold BindsAt
      constructor <;> intro g <;> omega
    subst this
    exact ⟨hlast.1, le_antisymm hlast.2 hge⟩
  refine reported_first h hlag hself hk1 hL hr hf (by omega) hl (show r.k - 1 ≤ kMax by omega) (by omega) hX' ?_ (.inr ⟨rfl, by simp only; omega⟩)
  unfold Spec.PassesTests at hp
  rcases hp with ⟨h0, _⟩ | ⟨_, p2, p3, p4, _, _⟩
  · omega
  refine .inr ⟨by omega, p2, p3, p4, fun _ => (e2 _ ⟨by omega, by omega⟩).2, ?_⟩
  have : r.l + (r.k - 1) = r.l + r.k - 1 := by omega
  rw [this]
  exact hge

variable (hP : Spec.NoReversalOf lay mod) (hZ : Spec.LowersElsewhere lay mod)
include hP hZ

/-- **C192.** The constrained variable itself is in no period higher on the worse path. -/
theorem C192_constrained {st st' : p ⊕ z → K} {e e' : ε → K} {x x' : Nat → ν → K}
    (hx : Spec.EndsInEquilibrium lay mod st e x) (hx' : Spec.EndsInEquilibrium lay mod st' e' x') {Y Y' : Nat → p ⊕ z → K}
    (hY : ExpectedPath mod 0 0 st e Y) (hY' : ExpectedPath mod 0 0 st' e' Y')
    (hc : ∀ s, lay.val (Y s) (.inl D.cvar) ≤ lay.val (Y' s) (.inl D.cvar)) (s : Nat) : x s D.cvar ≤ x' s D.cvar := by
  have hw := C188_harder h hlag hself hP hZ hx hx' hY hY' hc
  have n0 := lift_nonneg hx.equilibrium s
  have n0' := lift_nonneg hx'.equilibrium s
  rcases eq_or_lt_of_le n0 with g | g
  · have h1 := announced_comb h hlag hself hP (lift_response h hlag hself hx hY) (lift_response h hlag hself hx' hY') (-1)
    have h2 := hZ _ _ s h1 (fun s => by have := hw s; linarith) (by have := hw s; linarith)
    have h3 := hc s
    simp only [Pi.sub_apply, Spec.declared] at h2
    linarith
  · rw [bound_of_lift hx.equilibrium g]
    have h1 : x' s D.cvar = max D.xbar _ := hx'.equilibrium.con s
    rw [h1]
    exact le_max_left _ _

variable (hF : Spec.FlagMeansEquilibrium lay mod)
include hF

/-- **C192.** Let announced disturbances not reverse, and announced increases of the constrained variable not raise it in other periods; let what is reported
without an error be an equilibrium. If the linear path of the constrained variable is nowhere above that from another state with other shocks, then the reported spell ends no
earlier, and begins no later (unless a spell that begins as early would be too long for the tables): a spell of at least two periods, or of one period in which the rule is
below the bound, lies within the spell for the worse state. -/
theorem C192_transition (hk1 : 1 ≤ kMax) (hl1 : 1 ≤ lMax) (hL : lMax + 1 ≤ 999) {st st' : p ⊕ z → K} {e e' : ε → K} {r r' : Step z p K}
    (hr : tFunc mod st e .none false = .ok r) (hf : r.flag = 0) (hr' : tFunc mod st' e' .none false = .ok r') (hf' : r'.flag = 0)
    {Y Y' : Nat → p ⊕ z → K} (hY : ExpectedPath mod 0 0 st e Y) (hY' : ExpectedPath mod 0 0 st' e' Y')
    (hc : ∀ s, lay.val (Y s) (.inl D.cvar) ≤ lay.val (Y' s) (.inl D.cvar))
    (hg : 2 ≤ r'.k ∨ ∃ X, ExpectedPath mod r'.l r'.k st' e' X ∧
      ∃ s, Spec.ruleAt (Spec.asSolved D) (lagVal lay st') e' (Spec.declared lay X) s < D.xbar) :
    r'.l + r'.k ≤ r.l + r.k ∧ (r.l + r.k ≤ kMax + r'.l → r.l ≤ r'.l) := by
  obtain ⟨c, hm⟩ := genSys_ok h.perm h.gen
  have hfw := noLagFwd_of_not_expected (Z0 := Z0) (Z1 := Z1) hlag
  obtain ⟨X, hX, hE⟩ := hF st e r hr hf
  obtain ⟨X', hX', hE'⟩ := hF st' e' r' hr' hf'
  obtain ⟨hl, hk⟩ := found_inside h hk1 hr
  obtain ⟨hl', hk'⟩ := found_inside h hk1 hr'
  have ends : ∀ {l k : Nat} {st : p ⊕ z → K} {e : ε → K} {X : Nat → p ⊕ z → K}, l ≤ lMax → k ≤ kMax → ExpectedPath mod l k st e X →
      Spec.RuleEquilibrium (Spec.asSolved D) (lagVal lay st) e (Spec.declared lay X) → Spec.EndsInEquilibrium lay mod st e (Spec.declared lay X) := by
    intro l k st e X hl hk hX hE
    obtain ⟨x, hx1, hx2, hx3⟩ := (C148_characterisation h hlag hself hl hk st e X).1 hX
    have hdecl : Spec.declared lay X = x := by
      funext s v
      unfold Spec.declared
      rw [hx1, val_stateOf lay h.square]
      rfl
    refine ⟨hE, l + k, ?_⟩
    rw [hdecl]
    exact hx3
  have hx := ends hl hk hX hE
  have hx' := ends hl' hk' hX' hE'
  obtain ⟨e1, e2⟩ := equilibrium_spell h hlag hself hl hk hX hE
  obtain ⟨e1', e2'⟩ := equilibrium_spell h hlag hself hl' hk' hX' hE'
  -- the last period of the better spell binds
  have hlast : 1 ≤ r'.k ∧ Spec.ruleAt (Spec.asSolved D) (lagVal lay st') e' (Spec.declared lay X') (r'.l + r'.k - 1) < D.xbar := by
    by_cases h2 : 2 ≤ r'.k
    · exact ⟨by omega, C192_last_binds h hlag hself hk1 hl1 hL hr' hf' hX' hE' h2⟩
    · rcases hg with h3 | ⟨X2, hX2, s, hs⟩
      · exact absurd h3 h2
      · have : X2 = X' := by
          have g1 := (expectedPath_iff hm h.orc h.noTiny h.square h.states hfw hl' hk' st' e' X2).1 hX2
          have g2 := (expectedPath_iff hm h.orc h.noTiny h.square h.states hfw hl' hk' st' e' X').1 hX'
          funext s
          rw [g1, g2]
        subst this
        obtain ⟨b1, b2⟩ := e1' s hs
        have : s = r'.l + r'.k - 1 := by omega
        exact ⟨by omega, this ▸ hs⟩
  have hb := (C188_binds h hlag hself hP hZ hx hx' hY hY' hc hlast.2).1
  obtain ⟨b1, b2⟩ := e1 _ hb
  refine ⟨by omega, fun hfit => ?_⟩
  by_contra hlt
  rw [not_le] at hlt
  have hrk : 1 ≤ r.k := by omega
  obtain ⟨-, hp⟩ := reported_passes h hk1 hlag hself hr hf hX
  -- from the beginning of the better spell on, the worse path is at the bound
  have hmid : ∀ s, r'.l ≤ s → s < r.l → Spec.declared lay X s D.cvar = D.xbar ∧
      Spec.ruleAt (Spec.asSolved D) (lagVal lay st) e (Spec.declared lay X) s = D.xbar := by
    intro s h1 h2
    have h3 := C192_constrained h hlag hself hP hZ hx hx' hY hY' hc s
    rw [(e2' s ⟨h1, by omega⟩).1] at h3
    have h4 := rule_outside h hlag hself hl hk hX (s := s) (by unfold BindsAt; omega)
    have h5 : Spec.declared lay X s D.cvar = max D.xbar _ := hE.con s
    have h6 : D.xbar ≤ Spec.declared lay X s D.cvar := by rw [h5]; exact le_max_left _ _
    have h7 := le_antisymm h3 h6
    exact ⟨h7, h4.symm.trans h7⟩
  have hX2 : ExpectedPath mod r'.l (r.l + r.k - r'.l) st e X := by
    refine equilibrium_respell h hlag hself hl1 hl hk hX hl' (by omega) fun s hs => ?_
    apply hmid s
    · by_contra hn
      apply hs
      unfold BindsAt
      constructor <;> intro g <;> omega
    · by_contra hn
      apply hs
      unfold BindsAt
      constructor <;> intro g <;> omega
  refine reported_first h hlag hself hk1 hL hr hf hrk hl' (show r.l + r.k - r'.l ≤ kMax by omega) (by omega) hX2 ?_ (.inl hlt)
  have hge : ∀ s, ¬ BindsAt r.l r.k s → D.xbar ≤ Spec.ruleAt (Spec.asSolved D) (lagVal lay st) e (Spec.declared lay X) s := by
    intro s hs
    by_contra hn
    exact hs (e1 s (not_le.1 hn))
  refine .inr ⟨by omega, fun _ => hge 0 (by unfold BindsAt; omega), fun _ => hge _ (by unfold BindsAt; omega), (hmid _ le_rfl hlt).2.le, fun _ => ?_, ?_⟩
  · exact (e2 _ ⟨by omega, by omega⟩).2
  · have : r'.l + (r.l + r.k - r'.l) = r.l + r.k := by omega
    rw [this]
    exact hge _ (by unfold BindsAt; omega)

/-- The spell `lk'` of two and more periods lies within the spell `lk` (its beginning only if the tables have room). -/
def Spec.SpellWithin (kMax : Nat) (lk lk' : Nat × Nat) : Prop :=
  2 ≤ lk'.2 → lk'.1 + lk'.2 ≤ lk.1 + lk.2 ∧ (lk.1 + lk.2 ≤ kMax + lk'.1 → lk.1 ≤ lk'.1)

variable {lo up : ν → Prop} (hlo : ∀ v, lo v → Spec.Lowers lay mod v 0) (hup : ∀ v, up v → Spec.Raises lay mod v 0)
  (h0 : Spec.LinearOrders lay mod lo up 0 0)
include hlo hup h0

/-- **C192** for ordered states and shocks. -/
theorem C192_ordered (hk1 : 1 ≤ kMax) (hl1 : 1 ≤ lMax) (hL : lMax + 1 ≤ 999) {st st' : p ⊕ z → K} {e e' : ε → K}
    (ho : Spec.OrderedBy lay lo up st st') (he : Spec.LinearOrders lay mod lo up e e') {r r' : Step z p K}
    (hr : tFunc mod st e .none false = .ok r) (hf : r.flag = 0) (hr' : tFunc mod st' e' .none false = .ok r') (hf' : r'.flag = 0) :
    Spec.SpellWithin kMax (r.l, r.k) (r'.l, r'.k) := by
  obtain ⟨c, hm⟩ := genSys_ok h.perm h.gen
  have hz := h.states
  obtain ⟨Y, hY⟩ := linear_expectedPath hm st e
  obtain ⟨Y', hY'⟩ := linear_expectedPath hm st' e'
  intro h2
  exact C192_transition h hlag hself hP hZ hF hk1 hl1 hL hr hf hr' hf' hY hY' (fun s => (linear_ordered h h0 ho he hY hY' s).2) (.inl h2)

/-- **C192** for simulations: from ordered states with ordered shocks, in every period the spell that is expected on the better path lies within the one that is expected
on the worse path. -/
theorem C192_simulate (hk1 : 1 ≤ kMax) (hl1 : 1 ≤ lMax) (hL : lMax + 1 ≤ 999) {es es' : List (ε → K)}
    (hes : List.Forall₂ (Spec.LinearOrders lay mod lo up) es es') : ∀ {st st' : p ⊕ z → K}
    {res res' : SimRes z p K}, Spec.OrderedBy lay lo up st st' → simLoop mod false st es = .ok res → res.flag = 0 →
    simLoop mod false st' es' = .ok res' → res'.flag = 0 → List.Forall₂ (Spec.SpellWithin kMax) res.LK res'.LK := by
  induction hes with
  | nil =>
    intro st st' res res' hst h1 _ h2 _
    cases h1
    cases h2
    exact .nil
  | @cons e e' es es' he _ ih =>
    intro st st' res res' hst h1 hf h2 hf'
    unfold simLoop at h1 h2
    generalize hr : tFunc mod st e .none false = x at h1
    rcases x with err | r
    · cases h1
    generalize hr' : tFunc mod st' e' .none false = x' at h2
    rcases x' with err | r'
    · cases h2
    simp only at h1 h2
    generalize hx : simLoop mod false r.state es = y at h1
    rcases y with err | y
    · cases h1
    generalize hx' : simLoop mod false r'.state es' = y' at h2
    rcases y' with err | y'
    · cases h2
    cases h1
    cases h2
    simp only [Nat.or_eq_zero_iff] at hf hf'
    exact .cons (C192_ordered h hlag hself hP hZ hF hlo hup h0 hk1 hl1 hL hst he hr hf.1 hr' hf'.1)
      (ih (C188_transition h hk1 hlag hself hP hZ hlo hup h0 hF hst he hr hr' hf.1 hf'.1) hx hf.2 hx' hf'.2)

/-- **C192** for impulse responses, to any lists of shocks in any periods. -/
theorem C192_irfs (hk1 : 1 ≤ kMax) (hl1 : 1 ≤ lMax) (hL : lMax + 1 ≤ 999) {st st' : p ⊕ z → K} (hst : Spec.OrderedBy lay lo up st st')
    {sl sl' : List (ShockSpec ε K)}
    (hes : ∀ t, Spec.LinearOrders lay mod lo up (shkVec sl t) (shkVec sl' t)) {T : Nat} {xs ys : List (IrfState z p K)}
    (hxs : irfs mod ⟨sl, .none, false, false⟩ st T = .ok xs) (hys : irfs mod ⟨sl', .none, false, false⟩ st' T = .ok ys)
    {t : Nat} {s s' : IrfState z p K} (hs : xs[t]? = some s) (hs' : ys[t]? = some s') (hf : s.flag = 0) (hf' : s'.flag = 0) :
    Spec.SpellWithin kMax (s.l, s.k) (s'.l, s'.k) := by
  obtain ⟨a1, a2⟩ := irfRun_steps hxs
  obtain ⟨b1, b2⟩ := irfRun_steps hys
  have step : ∀ (s0 s0' : IrfState z p K), (s0.flag = 0 → s0'.flag = 0 → Spec.OrderedBy lay lo up s0.state s0'.state) →
      irfStep mod ⟨sl, .none, false, false⟩ s0 t = .ok s → irfStep mod ⟨sl', .none, false, false⟩ s0' t = .ok s' →
      Spec.SpellWithin kMax (s.l, s.k) (s'.l, s'.k) := by
    intro s0 s0' g0 h1 h2
    rw [irfStep_free (.inl rfl)] at h1 h2
    generalize hr : tFunc mod s0.state (shkVec sl t) .none false = x at h1
    rcases x with err | r
    · cases h1
    generalize hr' : tFunc mod s0'.state (shkVec sl' t) .none false = x' at h2
    rcases x' with err | r'
    · cases h2
    cases h1
    cases h2
    simp only [Nat.or_eq_zero_iff] at hf hf'
    exact C192_ordered h hlag hself hP hZ hF hlo hup h0 hk1 hl1 hL (g0 hf.1 hf'.1) (hes t) hr hf.2 hr' hf'.2
  cases t with
  | zero => exact step _ _ (fun _ _ => hst) (a2 0 _ s rfl hs) (b2 0 _ s' rfl hs')
  | succ t =>
    have ht : t < xs.length := by
      obtain ⟨h3, _⟩ := List.getElem?_eq_some_iff.1 hs
      omega
    have ht' : t < ys.length := by omega
    have hp : xs[t]? = some xs[t] := List.getElem?_eq_getElem ht
    have hp' : ys[t]? = some ys[t] := List.getElem?_eq_getElem ht'
    have g1 := a2 (t + 1) xs[t] s (by rw [List.getElem?_cons_succ]; exact hp) hs
    have g2 := b2 (t + 1) ys[t] s' (by rw [List.getElem?_cons_succ]; exact hp') hs'
    rw [Nat.zero_add] at g1 g2
    exact step _ _ (fun f f' => C188_irfs h hk1 hlag hself hP hZ hlo hup h0 hF hst hes hxs hys hp hp' f f') g1 g2

end
end Yaml
end Pydsge
