import Verif.Props.Below

/-!
# C188: worse states and shocks lead to worse paths, also with the constraint
-/

set_option autoImplicit false
set_option linter.unusedSectionVars false
set_option linter.unusedSimpArgs false

namespace Pydsge

open Matrix Pydsge.Engine Pydsge.Spec Pydsge.Tools Pydsge.GenSys

variable {E ν ε o K : Type} [Fintype E] [Fintype ν] [Fintype ε] [Fintype o]
  [DecidableEq E] [DecidableEq ν] [DecidableEq ε] [Field K] [LinearOrder K] [IsStrictOrderedRing K]
variable {H z p : Type} [DecidableEq H] [Fintype H] [Fintype z] [Fintype p] [DecidableEq z] [DecidableEq p]
section Yaml
variable {D : Declared E ν ε K} {Z0 : Matrix o ν K} {Z1 : o → K} {tol : K} [DecidablePred (inall tol (yaml D Z0 Z1))]
  {lay : Layout tol (yaml D Z0 Z1) H z p}
  {orc : Oracle (Rows E H ε) (z ⊕ ε) p K} {lMax kMax : Nat} {sched : Nat → List Nat} {mod : Model z ε p o K}

/-- Announced increases of the constrained variable in some periods do not raise it in the other periods. -/
def Spec.LowersElsewhere (lay : Layout tol (yaml D Z0 Z1) H z p) (mod : Model z ε p o K) : Prop :=
  ∀ d w t, Spec.AnnouncedResponse lay mod d w → (∀ s, 0 ≤ w s) → w t = 0 → d t D.cvar ≤ 0

/-- By how much the constraint lifts the constrained variable in period `s`: the distance to the value that satisfies the constraint equation. -/
def Spec.lift (D : Declared E ν ε K) (xlag : ν → K) (eps : ε → K) (x : Nat → ν → K) (s : Nat) : K :=
  x s D.cvar - Spec.ruleAt (Spec.asSolved D) xlag eps x s

/-- An equilibrium that ends on the linear solution, with any number of spells. -/
structure Spec.EndsInEquilibrium (lay : Layout tol (yaml D Z0 Z1) H z p) (mod : Model z ε p o K) (st : p ⊕ z → K) (eps : ε → K)
    (x : Nat → ν → K) : Prop where
  equilibrium : Spec.RuleEquilibrium (Spec.asSolved D) (lagVal lay st) eps x
  ends : ∃ n, Spec.JoinsLinear lay mod st eps x n

theorem lift_nonneg {xlag : ν → K} {eps : ε → K} {x : Nat → ν → K} (hx : Spec.RuleEquilibrium (Spec.asSolved D) xlag eps x) (s : Nat) :
    0 ≤ Spec.lift D xlag eps x s := by
  have h : x s D.cvar = max D.xbar _ := hx.con s
  unfold Spec.lift
  rw [h]
  exact sub_nonneg.2 (le_max_right _ _)

theorem bound_of_lift {xlag : ν → K} {eps : ε → K} {x : Nat → ν → K} (hx : Spec.RuleEquilibrium (Spec.asSolved D) xlag eps x) {s : Nat}
    (hs : 0 < Spec.lift D xlag eps x s) : x s D.cvar = D.xbar := by
  have h : x s D.cvar = max D.xbar _ := hx.con s
  unfold Spec.lift at hs
  rcases le_total D.xbar (Spec.ruleAt (Spec.asSolved D) xlag eps x s) with h1 | h1
  · rw [max_eq_right h1] at h
    rw [h, sub_self] at hs
    exact absurd hs (lt_irrefl _)
  · rw [max_eq_left h1] at h
    exact h

section
variable (h : Succeeded lay orc lMax kMax sched mod) (hlag : Spec.LagsNotExpected D) (hself : D.rb D.cvar ≠ 1)
include h hlag hself

/-- An equilibrium differs from the linear path by the response to what the constraint adds. -/
theorem lift_response {st : p ⊕ z → K} {eps : ε → K} {x : Nat → ν → K} (hx : Spec.EndsInEquilibrium lay mod st eps x) {Y : Nat → p ⊕ z → K}
    (hY : ExpectedPath mod 0 0 st eps Y) :
    Spec.AnnouncedResponse lay mod (fun s => x s - Spec.declared lay Y s) (Spec.lift D (lagVal lay st) eps x) := by
  have hdecl : ∀ {Z : Nat → p ⊕ z → K} {x : Nat → ν → K}, (∀ s, Z s = stateOf lay (x s)) → Spec.declared lay Z = x := by
    intro Z x hZ
    funext s v
    unfold Spec.declared
    rw [hZ, val_stateOf lay h.square]
    rfl
  obtain ⟨y, hy1, hy2, hy3⟩ := (C148_characterisation h hlag hself (Nat.zero_le _) (Nat.zero_le _) st eps Y).1 hY
  obtain ⟨n, hn⟩ := hx.ends
  rw [hdecl hy1]
  refine ⟨fun s => eqs_sub (hx.equilibrium.eqs s) (hy2.eqs s), fun s => ?_, n, ?_⟩
  · rw [ruleAt_sub (Spec.asSolved D) (lagVal lay st) eps x y s]
    have hy := rule_of_joins h hlag hself hy3 (Nat.zero_le s)
    show x s D.cvar - y s D.cvar = _
    rw [hy]
    unfold Spec.lift
    ring
  · have := joins_sub h hn (joins_mono hy3 (Nat.zero_le n))
    rwa [sub_self, sub_self] at this

variable (hP : Spec.NoReversalOf lay mod)
include hP

/-- **C188.** Let announced disturbances not reverse, and announced increases of the constrained variable not raise it in other periods. If the
linear path of the constrained variable is nowhere above that from another state with other shocks, then in equilibrium the constraint lifts it in
every period by at least as much. -/
theorem C188_harder (hZ : Spec.LowersElsewhere lay mod) {st st' : p ⊕ z → K} {e e' : ε → K} {x x' : Nat → ν → K}
    (hx : Spec.EndsInEquilibrium lay mod st e x) (hx' : Spec.EndsInEquilibrium lay mod st' e' x') {Y Y' : Nat → p ⊕ z → K}
    (hY : ExpectedPath mod 0 0 st e Y) (hY' : ExpectedPath mod 0 0 st' e' Y')
    (hc : ∀ s, lay.val (Y s) (.inl D.cvar) ≤ lay.val (Y' s) (.inl D.cvar)) (s : Nat) :
    Spec.lift D (lagVal lay st') e' x' s ≤ Spec.lift D (lagVal lay st) e x s := by
  have hd := lift_response h hlag hself hx hY
  have hd' := lift_response h hlag hself hx' hY'
  have n0 := lift_nonneg hx.equilibrium
  have n0' := lift_nonneg hx'.equilibrium
  have b0 := fun s => bound_of_lift hx'.equilibrium (s := s)
  have g0 : ∀ s, D.xbar ≤ x s D.cvar := fun s => by
    have h : x s D.cvar = max D.xbar _ := hx.equilibrium.con s
    rw [h]
    exact le_max_left _ _
  generalize Spec.lift D (lagVal lay st) e x = w at *
  generalize Spec.lift D (lagVal lay st') e' x' = w' at *
  obtain ⟨n, hn⟩ := announced_ends h hlag hself hd
  obtain ⟨n', hn'⟩ := announced_ends h hlag hself hd'
  have h1 := announced_comb h hlag hself hP hd' hd (-1)
  obtain ⟨dm, hdm, -⟩ := announced_exists_unique h hlag hself hP (n := max n n') (w := fun s => max (w s - w' s) 0) fun s hs => by
    rw [hn s ((le_max_left _ _).trans hs), hn' s ((le_max_right _ _).trans hs), sub_self, max_self]
  have h2 := announced_comb h hlag hself hP h1 hdm 1
  obtain ⟨n2, hn2⟩ := h2.ends
  have hpos : ∀ s, w' s + -1 * w s + 1 * max (w s - w' s) 0 = max (w' s - w s) 0 := by
    intro s
    rcases le_total (w s) (w' s) with g | g
    · rw [max_eq_right (sub_nonpos.2 g), max_eq_left (sub_nonneg.2 g)]
      ring
    · rw [max_eq_left (sub_nonneg.2 g), max_eq_right (sub_nonpos.2 g)]
      ring
  have h0 := hP _ _ n2 h2.eqs h2.rule hn2 fun s => by
    rw [hpos]
    rcases le_total (w' s) (w s) with g | g
    · rw [max_eq_right (sub_nonpos.2 g), zero_mul]
    · rw [max_eq_left (sub_nonneg.2 g)]
      rcases eq_or_lt_of_le g with g' | g'
      · rw [g', sub_self, zero_mul]
      · refine mul_nonpos_of_nonneg_of_nonpos (sub_nonneg.2 g) ?_
        have a1 := hZ dm _ s hdm (fun s => le_max_right _ _) (max_eq_right (sub_nonpos.2 g))
        have a2 := b0 s ((n0 s).trans_lt g')
        have a3 := g0 s
        have a4 := hc s
        simp only [Pi.sub_apply, Spec.declared]
        linarith
  have h3 := h2.rule s
  rw [h0, hpos] at h3
  have e0 : Spec.ruleAt (Spec.asSolved D) 0 0 (0 : Nat → ν → K) s = 0 := by
    have := ruleAt_sub (Spec.asSolved D) 0 0 (0 : Nat → ν → K) 0 s
    rw [sub_self] at this
    rw [← this]
    congr 1
    funext s
    simp
  rw [e0, zero_add] at h3
  have h4 : max (w' s - w s) 0 = 0 := h3.symm.trans (congrFun (congrFun h0 s) D.cvar)
  have := le_max_left (w' s - w s) 0
  rw [h4] at this
  exact sub_nonpos.1 this

/-- **C188.** Then every variable that announced increases of the constrained variable lower, and that is not higher on the linear path, is not
higher in equilibrium; and every variable that they raise, and that is not lower on the linear path, is not lower. -/
theorem C188_order (hZ : Spec.LowersElsewhere lay mod) {st st' : p ⊕ z → K} {e e' : ε → K} {x x' : Nat → ν → K}
    (hx : Spec.EndsInEquilibrium lay mod st e x) (hx' : Spec.EndsInEquilibrium lay mod st' e' x') {Y Y' : Nat → p ⊕ z → K}
    (hY : ExpectedPath mod 0 0 st e Y) (hY' : ExpectedPath mod 0 0 st' e' Y')
    (hc : ∀ s, lay.val (Y s) (.inl D.cvar) ≤ lay.val (Y' s) (.inl D.cvar)) (v : ν) (t : Nat) :
    (Spec.Lowers lay mod v t → lay.val (Y t) (.inl v) ≤ lay.val (Y' t) (.inl v) → x t v ≤ x' t v) ∧
    (Spec.Raises lay mod v t → lay.val (Y' t) (.inl v) ≤ lay.val (Y t) (.inl v) → x' t v ≤ x t v) := by
  have hw := C188_harder h hlag hself hP hZ hx hx' hY hY' hc
  have h1 := announced_comb h hlag hself hP (lift_response h hlag hself hx hY) (lift_response h hlag hself hx' hY') (-1)
  have hpos : ∀ s, 0 ≤ Spec.lift D (lagVal lay st) e x s + -1 * Spec.lift D (lagVal lay st') e' x' s := fun s => by
    have := hw s
    linarith
  refine ⟨fun hv hy => ?_, fun hv hy => ?_⟩
  · have := hv _ _ h1 hpos
    simp only [Pi.sub_apply, Spec.declared] at this
    linarith
  · have := hv _ _ h1 hpos
    simp only [Pi.sub_apply, Spec.declared] at this
    linarith

/-- **C188.** In every period in which the constraint really binds on the better path, it binds on the worse one. -/
theorem C188_binds (hZ : Spec.LowersElsewhere lay mod) {st st' : p ⊕ z → K} {e e' : ε → K} {x x' : Nat → ν → K}
    (hx : Spec.EndsInEquilibrium lay mod st e x) (hx' : Spec.EndsInEquilibrium lay mod st' e' x') {Y Y' : Nat → p ⊕ z → K}
    (hY : ExpectedPath mod 0 0 st e Y) (hY' : ExpectedPath mod 0 0 st' e' Y')
    (hc : ∀ s, lay.val (Y s) (.inl D.cvar) ≤ lay.val (Y' s) (.inl D.cvar)) {s : Nat}
    (hs : Spec.ruleAt (Spec.asSolved D) (lagVal lay st') e' x' s < D.xbar) :
    Spec.ruleAt (Spec.asSolved D) (lagVal lay st) e x s < D.xbar ∧ x s D.cvar = D.xbar := by
  have hw := C188_harder h hlag hself hP hZ hx hx' hY hY' hc s
  have h1 : x' s D.cvar = max D.xbar _ := hx'.equilibrium.con s
  rw [max_eq_left hs.le] at h1
  have h2 : 0 < Spec.lift D (lagVal lay st) e x s := by
    refine lt_of_lt_of_le ?_ hw
    unfold Spec.lift
    rw [h1]
    exact sub_pos.2 hs
  have h3 := bound_of_lift hx.equilibrium h2
  unfold Spec.lift at h2
  rw [h3] at h2
  exact ⟨sub_pos.1 h2, h3⟩

/-- **C188.** The condition on announcements concerns responses to single announcements only. -/
theorem C188_elsewhere_iff : Spec.LowersElsewhere lay mod ↔
    ∀ i d t, Spec.AnnouncedResponse lay mod d (Spec.oneAt i) → t ≠ i → d t D.cvar ≤ 0 := by
  constructor
  · intro hl i d t hd ht
    refine hl d _ t hd (fun s => ?_) ?_
    · unfold Spec.oneAt
      split_ifs
      · exact zero_le_one
      · exact le_rfl
    · unfold Spec.oneAt
      rw [if_neg ht]
  · intro h1 d w t hd hw ht
    obtain ⟨n, hn⟩ := announced_ends h hlag hself hd
    induction n generalizing d w with
    | zero =>
      obtain rfl : w = 0 := funext fun s => hn s (Nat.zero_le s)
      have h2 := announced_comb h hlag hself hP hd hd (-1)
      have e : (fun s => (0 : Nat → K) s + -1 * (0 : Nat → K) s) = 0 := by
        funext s
        simp
      rw [e] at h2
      have := (announced_exists_unique h hlag hself hP hn).unique hd h2
      have := congrFun (congrFun this t) D.cvar
      linarith
    | succ n ih =>
      by_cases hnt : n = t
      · refine ih d w hd hw ht fun s hs => ?_
        rcases Nat.eq_or_lt_of_le hs with rfl | hs
        · rw [hnt, ht]
        · exact hn s hs
      · obtain ⟨d1, hd1, -⟩ := announced_exists_unique h hlag hself hP (n := n + 1) (w := Spec.oneAt n) fun s hs => by
          unfold Spec.oneAt
          rw [if_neg (by omega)]
        have h2 := announced_comb h hlag hself hP hd hd1 (-(w n))
        have h3 := ih _ _ h2 (fun s => ?_) ?_ (fun s hs => ?_)
        · have h4 := h1 n d1 t hd1 (Ne.symm hnt)
          have h5 := mul_nonpos_of_nonneg_of_nonpos (hw n) h4
          linarith
        · unfold Spec.oneAt
          by_cases hs : s = n
          · subst hs
            simp
          · simp only [if_neg hs]
            have := hw s
            linarith
        · unfold Spec.oneAt
          simp only [if_neg (Ne.symm hnt)]
          rw [ht]
          ring
        · unfold Spec.oneAt
          by_cases hs' : s = n
          · subst hs'
            simp
          · simp only [if_neg hs']
            rw [hn s (by omega)]
            ring

end

/-! ## Transitions and simulations -/

/-- What is reported without an error has passed the tests. -/
theorem reported_passes (h : Succeeded lay orc lMax kMax sched mod) (hk1 : 1 ≤ kMax) (hlag : Spec.LagsNotExpected D)
    (hself : D.rb D.cvar ≠ 1) {st : p ⊕ z → K} {eps : ε → K} {r : Step z p K} (hr : tFunc mod st eps .none false = .ok r) (hflag : r.flag = 0)
    {X : Nat → p ⊕ z → K} (hX : ExpectedPath mod r.l r.k st eps X) :
    (r.k = 0 → r.l = 0) ∧
      Spec.PassesTests D.xbar (Spec.ruleAt (Spec.asSolved D) (lagVal lay st) eps (Spec.declared lay X)) (lMax + 1) r.l r.k := by
  obtain ⟨c, hm⟩ := genSys_ok h.perm h.gen
  obtain ⟨M', hS⟩ := hm.eng
  have hz := h.states
  have hf := noLagFwd_of_not_expected (Z0 := Z0) (Z1 := Z1) hlag
  have hxb : mod.xbar = D.xbar := hm.xbar
  have hv : ∀ {l' k'}, l' ≤ lMax → k' ≤ kMax → ∀ s, pathValue (ff lay) c (q0Of st eps) l' k' s =
      Spec.ruleAt (Spec.asSolved D) (lagVal lay st) eps (Spec.declared lay (xPath c l' k' (q0Of st eps))) s :=
    fun hl' hk' s => pathValue_rule h hm hlag hself hl' hk' st eps s
  obtain ⟨l, k, flag, hfd, hl, hk, hcase⟩ := findLk_cases (xbar := mod.xbar) (checkCnst_reads hS (q0Of st eps)) (by omega)
    (show 1 < kMax + 1 by omega)
  have hrun := tFunc_find hm st eps hfd (by omega) (by omega)
  have : _ = r := Except.ok.inj (hrun.symm.trans hr)
  subst this
  simp only at hflag hX ⊢
  have hXs : X = xPath c l k (q0Of st eps) :=
    funext ((expectedPath_iff hm h.orc h.noTiny h.square h.states hf (show l ≤ lMax by omega) (show k ≤ kMax by omega) st eps X).1 hX)
  subst hXs
  rcases hcase with ⟨h1, h2, h3, h4⟩ | ⟨h1, h2⟩ | ⟨h1, h2, h3⟩
  · subst h1 h2
    refine ⟨fun _ => rfl, .inl ⟨rfl, fun j hj => ?_⟩⟩
    have := h4 j hj
    simp only [slotPeriod] at this
    rw [hv (show j ≤ lMax by omega) (Nat.zero_le _), hxb] at this
    have e : Spec.declared lay (xPath c j 0 (q0Of st eps)) = Spec.declared lay (xPath c 0 0 (q0Of st eps)) := by
      funext s v
      unfold Spec.declared
      rw [(xPath_l0 h hm (show j ≤ lMax by omega) (q0Of st eps) s).2]
    rwa [e] at this
  · obtain ⟨c1, c2, c3, c4, c5, c6⟩ := h2
    simp only [slotPeriod, hv (show l ≤ lMax by omega) (show k ≤ kMax by omega), hxb] at c2 c3 c4 c5 c6
    exact ⟨by omega, .inr ⟨c1, c2, c3, c5, c6, c4⟩⟩
  · exact absurd hflag h3

/-- What is reported without an error is an equilibrium. -/
def Spec.FlagMeansEquilibrium (lay : Layout tol (yaml D Z0 Z1) H z p) (mod : Model z ε p o K) : Prop :=
  ∀ st e r, tFunc mod st e .none false = .ok r → r.flag = 0 → ∃ X, ExpectedPath mod r.l r.k st e X ∧
    Spec.RuleEquilibrium (Spec.asSolved D) (lagVal lay st) e (Spec.declared lay X)

/-- With the shocks `e` and `e'` the linear model keeps the order of states, and of the constrained variable. -/
def Spec.LinearOrders (lay : Layout tol (yaml D Z0 Z1) H z p) (mod : Model z ε p o K) (lo up : ν → Prop) (e e' : ε → K) : Prop :=
  ∀ st st' r r', Spec.OrderedBy lay lo up st st' → tFunc mod st e .none true = .ok r → tFunc mod st' e' .none true = .ok r' →
    Spec.OrderedBy lay lo up r.state r'.state ∧ lay.val r.state (.inl D.cvar) ≤ lay.val r'.state (.inl D.cvar)

section
variable (h : Succeeded lay orc lMax kMax sched mod) (hk1 : 1 ≤ kMax) (hlag : Spec.LagsNotExpected D) (hself : D.rb D.cvar ≠ 1)
  (hP : Spec.NoReversalOf lay mod) (hZ : Spec.LowersElsewhere lay mod)
  {lo up : ν → Prop} (hlo : ∀ v, lo v → Spec.Lowers lay mod v 0) (hup : ∀ v, up v → Spec.Raises lay mod v 0)
  (h0 : Spec.LinearOrders lay mod lo up 0 0) (hF : Spec.FlagMeansEquilibrium lay mod)

include h in
/-- the order along linear paths -/
theorem linear_ordered (h0 : Spec.LinearOrders lay mod lo up 0 0) {st st' : p ⊕ z → K} {e e' : ε → K} (ho : Spec.OrderedBy lay lo up st st')
    (he : Spec.LinearOrders lay mod lo up e e') {Y Y' : Nat → p ⊕ z → K} (hY : ExpectedPath mod 0 0 st e Y) (hY' : ExpectedPath mod 0 0 st' e' Y')
    (s : Nat) : Spec.OrderedBy lay lo up (Y s) (Y' s) ∧ lay.val (Y s) (.inl D.cvar) ≤ lay.val (Y' s) (.inl D.cvar) := by
  have hel : ∀ t, elapsed 0 0 t = (0, 0) := by
    intro t
    unfold elapsed
    split_ifs <;> simp
  induction s with
  | zero =>
    obtain ⟨r, g1, g2⟩ := hY 0
    obtain ⟨r', g1', g2'⟩ := hY' 0
    rw [hel] at g1 g1'
    rw [g2, g2']
    exact he _ _ _ _ ho g1 g1'
  | succ s ih =>
    obtain ⟨r, g1, g2⟩ := hY (s + 1)
    obtain ⟨r', g1', g2'⟩ := hY' (s + 1)
    rw [hel] at g1 g1'
    rw [g2, g2']
    exact h0 _ _ _ _ ih.1 g1 g1'

include h hk1 hlag hself hF in
/-- a transition without an error is the first step of an equilibrium -/
theorem transition_equilibrium {st : p ⊕ z → K} {e : ε → K} {r : Step z p K} (hr : tFunc mod st e .none false = .ok r) (hf : r.flag = 0) :
    ∃ x, Spec.EndsInEquilibrium lay mod st e x ∧ ∀ v, lay.val r.state (.inl v) = x 0 v := by
  obtain ⟨X, hX, hXe⟩ := hF st e r hr hf
  obtain ⟨hl, hk⟩ := found_inside h hk1 hr
  obtain ⟨x, hx1, hx2, hx3⟩ := (C148_characterisation h hlag hself hl hk st e X).1 hX
  have hdecl : Spec.declared lay X = x := by
    funext s v
    unfold Spec.declared
    rw [hx1, val_stateOf lay h.square]
    rfl
  rw [hdecl] at hXe
  refine ⟨x, ⟨hXe, _, hx3⟩, fun v => ?_⟩
  obtain ⟨r1, g1, g2, _, _⟩ := C14_impose_found_equilibrium h hk1 st e r hr
  obtain ⟨r2, g5, g6⟩ := hX 0
  rw [elapsed_zero] at g5
  have : r1 = r2 := Except.ok.inj (g1.symm.trans g5)
  rw [← g2, this, ← g6, ← hdecl]
  rfl

include h hk1 hlag hself hP hZ hlo hup h0 hF

/-- **C188.** One transition keeps the order of states. -/
theorem C188_transition {st st' : p ⊕ z → K} {e e' : ε → K} (ho : Spec.OrderedBy lay lo up st st') (he : Spec.LinearOrders lay mod lo up e e')
    {r r' : Step z p K} (hr : tFunc mod st e .none false = .ok r) (hr' : tFunc mod st' e' .none false = .ok r') (hf : r.flag = 0) (hf' : r'.flag = 0) :
    Spec.OrderedBy lay lo up r.state r'.state := by
  obtain ⟨c, hm⟩ := genSys_ok h.perm h.gen
  have hz := h.states
  obtain ⟨x, hx, hx0⟩ := transition_equilibrium h hk1 hlag hself hF hr hf
  obtain ⟨x', hx', hx0'⟩ := transition_equilibrium h hk1 hlag hself hF hr' hf'
  obtain ⟨Y, hY⟩ := linear_expectedPath hm st e
  obtain ⟨Y', hY'⟩ := linear_expectedPath hm st' e'
  have hord := linear_ordered h h0 ho he hY hY'
  have key := fun v => C188_order h hlag hself hP hZ hx hx' hY hY' (fun s => (hord s).2) v 0
  refine ⟨fun v hv => ?_, fun v hv => ?_⟩
  · rw [hx0, hx0']
    exact (key v).1 (hlo v hv) ((hord 0).1.1 v hv)
  · rw [hx0, hx0']
    exact (key v).2 (hup v hv) ((hord 0).1.2 v hv)

/-- **C188.** Simulations with the constraint from ordered states with ordered shocks stay ordered in all periods. -/
theorem C188_simulate {es es' : List (ε → K)} (hes : List.Forall₂ (Spec.LinearOrders lay mod lo up) es es') : ∀ {st st' : p ⊕ z → K}
    {res res' : SimRes z p K}, Spec.OrderedBy lay lo up st st' → simLoop mod false st es = .ok res → res.flag = 0 →
    simLoop mod false st' es' = .ok res' → res'.flag = 0 → List.Forall₂ (Spec.OrderedBy lay lo up) res.X res'.X := by
  induction hes with
  | nil =>
    intro st st' res res' hst h1 _ h2 _
    cases h1
    cases h2
    exact .cons hst .nil
  | @cons e e' es es' he _ ih =>
    intro st st' res res' hst h1 hf h2 hf'
    unfold simLoop at h1 h2
    generalize hr : tFunc mod st e .none false = x at h1
    rcases x with err | r
    · cases h1
    generalize hr' : tFunc mod st' e' .none false = x' at h2
    rcases x' with err | r'
    · cases h2
    simp only at h1 h2
    generalize hx : simLoop mod false r.state es = y at h1
    rcases y with err | y
    · cases h1
    generalize hx' : simLoop mod false r'.state es' = y' at h2
    rcases y' with err | y'
    · cases h2
    cases h1
    cases h2
    simp only [Nat.or_eq_zero_iff] at hf hf'
    exact .cons hst (ih (C188_transition h hk1 hlag hself hP hZ hlo hup h0 hF hst he hr hr' hf.1 hf'.1) hx hf.2 hx' hf'.2)

/-- **C188** for impulse responses, to any lists of shocks in any periods. -/
theorem C188_irfs {st st' : p ⊕ z → K} (hst : Spec.OrderedBy lay lo up st st') {sl sl' : List (ShockSpec ε K)}
    (hes : ∀ t, Spec.LinearOrders lay mod lo up (shkVec sl t) (shkVec sl' t)) {T : Nat} {xs ys : List (IrfState z p K)}
    (hxs : irfs mod ⟨sl, .none, false, false⟩ st T = .ok xs) (hys : irfs mod ⟨sl', .none, false, false⟩ st' T = .ok ys) :
    ∀ {t : Nat} {s s' : IrfState z p K}, xs[t]? = some s → ys[t]? = some s' → s.flag = 0 → s'.flag = 0 →
      Spec.OrderedBy lay lo up s.state s'.state := by
  obtain ⟨a1, a2⟩ := irfRun_steps hxs
  obtain ⟨b1, b2⟩ := irfRun_steps hys
  have step : ∀ (t : Nat) (s0 s s0' s' : IrfState z p K), Spec.OrderedBy lay lo up s0.state s0'.state ∨ s0.flag ≠ 0 ∨ s0'.flag ≠ 0 →
      irfStep mod ⟨sl, .none, false, false⟩ s0 t = .ok s → irfStep mod ⟨sl', .none, false, false⟩ s0' t = .ok s' → s.flag = 0 → s'.flag = 0 →
      Spec.OrderedBy lay lo up s.state s'.state := by
    intro t s0 s s0' s' g0 h1 h2 h3 h3'
    rw [irfStep_free (.inl rfl)] at h1 h2
    generalize hr : tFunc mod s0.state (shkVec sl t) .none false = x at h1
    rcases x with err | r
    · cases h1
    generalize hr' : tFunc mod s0'.state (shkVec sl' t) .none false = x' at h2
    rcases x' with err | r'
    · cases h2
    cases h1
    cases h2
    simp only [Nat.or_eq_zero_iff] at h3 h3'
    rcases g0 with g0 | g0 | g0
    · exact C188_transition h hk1 hlag hself hP hZ hlo hup h0 hF g0 (hes t) hr hr' h3.2 h3'.2
    · exact absurd h3.1 g0
    · exact absurd h3'.1 g0
  intro t
  induction t with
  | zero =>
    intro s s' hs hs' hf hf'
    exact step 0 _ s _ s' (.inl hst) (a2 0 _ s rfl hs) (b2 0 _ s' rfl hs') hf hf'
  | succ t ih =>
    intro s s' hs hs' hf hf'
    have ht : t < xs.length := by
      obtain ⟨h3, _⟩ := List.getElem?_eq_some_iff.1 hs
      omega
    have ht' : t < ys.length := by omega
    have hp : xs[t]? = some xs[t] := List.getElem?_eq_getElem ht
    have hp' : ys[t]? = some ys[t] := List.getElem?_eq_getElem ht'
    have g1 := a2 (t + 1) xs[t] s (by rw [List.getElem?_cons_succ]; exact hp) hs
    have g2 := b2 (t + 1) ys[t] s' (by rw [List.getElem?_cons_succ]; exact hp') hs'
    rw [Nat.zero_add] at g1 g2
    refine step (t + 1) _ s _ s' ?_ g1 g2 hf hf'
    by_cases h0 : xs[t].flag = 0
    · by_cases h0' : ys[t].flag = 0
      · exact .inl (ih hp hp' h0 h0')
      · exact .inr (.inr h0')
    · exact .inr (.inl h0)

end
end Yaml
end Pydsge
