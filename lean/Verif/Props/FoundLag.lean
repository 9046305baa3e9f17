import Verif.Props.Found

/-!
# C173: the search, for constraints with lags, shocks and the constrained variable itself

C116, C161 and C163 are about constraints without lags.  Here are the same statements for all constraints, about the model that is solved in
place of the declared one (`Spec.asSolved`, C148).
-/

set_option autoImplicit false
set_option linter.unusedSectionVars false
set_option linter.unusedSimpArgs false

namespace Pydsge

open Matrix Pydsge.Engine Pydsge.Spec Pydsge.Tools Pydsge.GenSys

variable {E ν ε o K : Type} [Fintype E] [Fintype ν] [Fintype ε] [Fintype o]
  [DecidableEq E] [DecidableEq ν] [DecidableEq ε] [Field K] [LinearOrder K] [IsStrictOrderedRing K]
variable {H z p : Type} [DecidableEq H] [Fintype H] [Fintype z] [Fintype p] [DecidableEq z] [DecidableEq p]

/-! ## Specification -/

namespace Spec

/-- The value of the constrained variable that satisfies the constraint equation in period `s`, given all other variables of the path. -/
def ruleAt (D : Declared E ν ε K) (xlag : ν → K) (eps : ε → K) (x : Nat → ν → K) (s : Nat) : K :=
  ruleValue D (prev xlag x s) (shockAt eps s) (x s)

/-- A path that solves all equations, and on which the constrained variable is never below the bound, and satisfies the constraint equation
unless that would be below the bound. -/
structure RuleEquilibrium (D : Declared E ν ε K) (xlag : ν → K) (eps : ε → K) (x : Nat → ν → K) : Prop where
  eqs : ∀ s, EqsHold D xlag eps x s
  con : ∀ s, x s D.cvar = max D.xbar (ruleAt D xlag eps x s)

/-- The values `v` are below the bound only in the periods `l, …, l+k-1`, and in none of these above it. -/
structure OneSpellOf (xbar : K) (v : Nat → K) (l k : Nat) : Prop where
  only : ∀ s, v s < xbar → l ≤ s ∧ s < l + k
  all : ∀ s, l ≤ s → s < l + k → v s ≤ xbar

/-- The values `v` are at or above the bound before the spell `(l,k)`, not above it during the spell, and above it afterwards. -/
structure SatisfiesOf (xbar : K) (v : Nat → K) (l k : Nat) : Prop where
  before : ∀ s < l, xbar ≤ v s
  during : ∀ s, BindsAt l k s → v s ≤ xbar
  after : ∀ s, l + k ≤ s → xbar < v s

/-- The values `v` pass the tests for the spell `(l,k)` in five periods or, for the unconstrained path, in the first `L` periods. -/
def PassesTests (xbar : K) (v : Nat → K) (L l k : Nat) : Prop :=
  (k = 0 ∧ ∀ j < L, xbar < v j) ∨
  (1 ≤ k ∧ (1 ≤ l → xbar ≤ v 0) ∧ (2 ≤ l → xbar ≤ v (l - 1)) ∧ v l ≤ xbar ∧ (2 ≤ k → v (l + k - 1) ≤ xbar) ∧ xbar ≤ v (l + k))

end Spec

/-- The constraint equation holds if and only if the variable has the value that satisfies it. -/
theorem rule_iff {D : Declared E ν ε K} (hself : D.rb D.cvar ≠ 1) (xlag : ν → K) (eps : ε → K) (x : Nat → ν → K) (s : Nat) :
    x s D.cvar = Spec.ruleAt D xlag eps x s ↔ x s D.cvar = notional D xlag eps x s := by
  have hd : (1 - D.rb D.cvar) ≠ 0 := sub_ne_zero.2 (Ne.symm hself)
  unfold Spec.ruleAt
  rw [Spec.ruleValue_eq, eq_div_iff hd]
  unfold notional
  constructor <;> intro h <;> linear_combination h

/-- If the coefficient of the constrained variable on its own right hand side is below one, these are the equilibria as in C161. -/
theorem ruleEquilibrium_iff {D : Declared E ν ε K} (hself : D.rb D.cvar < 1) (xlag : ν → K) (eps : ε → K) (x : Nat → ν → K) :
    Spec.RuleEquilibrium D xlag eps x ↔ Spec.Equilibrium D xlag eps x := by
  have hd : 0 < 1 - D.rb D.cvar := sub_pos.2 hself
  have key : ∀ s, x s D.cvar = max D.xbar (Spec.ruleAt D xlag eps x s) ↔ x s D.cvar = max D.xbar (notional D xlag eps x s) := by
    intro s
    have e : notional D xlag eps x s - D.rb D.cvar * x s D.cvar = (1 - D.rb D.cvar) * Spec.ruleAt D xlag eps x s := by
      unfold Spec.ruleAt
      rw [Spec.ruleValue_eq, mul_div_cancel₀ _ hd.ne']
      unfold notional
      ring
    generalize Spec.ruleAt D xlag eps x s = v at *
    generalize notional D xlag eps x s = n at *
    generalize x s D.cvar = y at *
    generalize D.rb D.cvar = c at *
    generalize D.xbar = b at *
    constructor
    · intro h
      rcases le_total b v with hb | hb
      · rw [max_eq_right hb] at h
        subst h
        have hn : n = y := by linear_combination e
        rw [hn, max_eq_right hb]
      · rw [max_eq_left hb] at h
        subst h
        rw [max_eq_left]
        nlinarith
    · intro h
      rcases le_total b n with hb | hb
      · rw [max_eq_right hb] at h
        subst h
        have hv : v = y := mul_left_cancel₀ hd.ne' (by linear_combination -e)
        rw [hv, max_eq_right hb]
      · rw [max_eq_left hb] at h
        subst h
        rw [max_eq_left]
        by_contra hn
        push Not at hn
        have := mul_lt_mul_of_pos_left hn hd
        nlinarith
  exact ⟨fun h => ⟨h.eqs, fun s => (key s).1 (h.con s)⟩, fun h => ⟨h.eqs, fun s => (key s).2 (h.con s)⟩⟩

section Yaml
variable {D : Declared E ν ε K} {Z0 : Matrix o ν K} {Z1 : o → K} {tol : K} [DecidablePred (inall tol (yaml D Z0 Z1))]
  {lay : Layout tol (yaml D Z0 Z1) H z p}
  {orc : Oracle (Rows E H ε) (z ⊕ ε) p K} {lMax kMax : Nat} {sched : Nat → List Nat} {mod : Model z ε p o K}
  {c : Nat → Nat → Cell (z ⊕ ε) p K}

/-- The values that the search looks at, in every period, are those that satisfy the constraint equation of the solved model. -/
theorem pathValue_rule (h : Succeeded lay orc lMax kMax sched mod) (hm : SolvedModel lay orc lMax kMax mod c) (hf : Spec.LagsNotExpected D)
    (hself : D.rb D.cvar ≠ 1) {l k : Nat} (hl : l ≤ lMax) (hk : k ≤ kMax) (st0 : p ⊕ z → K) (eps : ε → K) (s : Nat) :
    pathValue (ff lay) c (q0Of st0 eps) l k s =
      Spec.ruleAt (Spec.asSolved D) (lagVal lay st0) eps (Spec.declared lay (xPath c l k (q0Of st0 eps))) s := by
  have hf' := noLagFwd_of_not_expected (Z0 := Z0) (Z1 := Z1) hf
  have hX : ExpectedPath mod l k st0 eps (xPath c l k (q0Of st0 eps)) :=
    (expectedPath_iff hm h.orc h.noTiny h.square h.states hf' hl hk st0 eps _).2 fun _ => rfl
  have hlv := expected_lagVal h hf' hl hk hX s
  have hq := q0Of_prev hm h.orc h.noTiny h.square hf' hl hk st0 eps s
  rw [pathValue_loc, ← hq, pathValue_solved h hf hself, hq, ← xPath_loc, hlv]
  rfl

/-- If a path passes the tests, the search ends with flag 0. -/
theorem flag_zero_of_passes (h : Succeeded lay orc lMax kMax sched mod) (hk1 : 1 ≤ kMax) (hL : lMax + 1 ≤ 999) (hlag : Spec.LagsNotExpected D)
    (hself : D.rb D.cvar ≠ 1) {l k : Nat} (hl : l ≤ lMax) (hk : k ≤ kMax) {st : p ⊕ z → K} {eps : ε → K} {X : Nat → p ⊕ z → K}
    (hX : ExpectedPath mod l k st eps X)
    (hs : Spec.PassesTests D.xbar (Spec.ruleAt (Spec.asSolved D) (lagVal lay st) eps (Spec.declared lay X)) (lMax + 1) l k)
    (h00 : k = 0 → l = 0) : ∃ r, tFunc mod st eps .none false = .ok r ∧ r.flag = 0 := by
  obtain ⟨c, hm⟩ := genSys_ok h.perm h.gen
  obtain ⟨M', hS⟩ := hm.eng
  have hz := h.states
  have hf := noLagFwd_of_not_expected (Z0 := Z0) (Z1 := Z1) hlag
  have hXs : X = xPath c l k (q0Of st eps) :=
    funext ((expectedPath_iff hm h.orc h.noTiny h.square h.states hf hl hk st eps X).1 hX)
  subst hXs
  have hv : ∀ {l' k'}, l' ≤ lMax → k' ≤ kMax → ∀ s, pathValue (ff lay) c (q0Of st eps) l' k' s =
      Spec.ruleAt (Spec.asSolved D) (lagVal lay st) eps (Spec.declared lay (xPath c l' k' (q0Of st eps))) s :=
    fun hl' hk' s => pathValue_rule h hm hlag hself hl' hk' st eps s
  have hxb : mod.xbar = D.xbar := hm.xbar
  have hspec := findLk_spec (xbar := mod.xbar) (checkCnst_reads hS (q0Of st eps)) (by omega) hL (show 1 < kMax + 1 by omega)
  rcases hspec with ⟨_, h2⟩ | ⟨_, l', k', ⟨g1, g2, -, -⟩, h2⟩ | ⟨hn, h1, _⟩
  · exact ⟨_, tFunc_find hm st eps h2 (Nat.zero_le _) (Nat.zero_le _), rfl⟩
  · exact ⟨_, tFunc_find hm st eps h2 (by omega) (by omega), rfl⟩
  · exfalso
    rcases hs with ⟨rfl, hs⟩ | ⟨c1, c2, c3, c4, c5, c6⟩
    · obtain rfl := h00 rfl
      refine hn fun j hj => ?_
      simp only [slotPeriod]
      rw [hv (show j ≤ lMax by omega) (Nat.zero_le _), hxb]
      have : Spec.declared lay (xPath c j 0 (q0Of st eps)) = Spec.declared lay (xPath c 0 0 (q0Of st eps)) := by
        funext s v
        unfold Spec.declared
        rw [(xPath_l0 h hm (show j ≤ lMax by omega) (q0Of st eps) s).2]
      rw [this]
      exact hs j hj
    · refine h1 l k (by omega) (by omega) ⟨c1, fun g => ?_, fun g => ?_, ?_, ?_, fun g => ?_⟩ <;> simp only [slotPeriod, hv hl hk, hxb]
      · exact c2 g
      · exact c3 g
      · exact c6
      · exact c4
      · exact c5 g

/-- **C173**: `t_func` reports no error if and only if the path of some spell inside the tables passes the tests. -/
theorem C173_flag_iff (h : Succeeded lay orc lMax kMax sched mod) (hk1 : 1 ≤ kMax) (hL : lMax + 1 ≤ 999) (hlag : Spec.LagsNotExpected D)
    (hself : D.rb D.cvar ≠ 1) (st : p ⊕ z → K) (eps : ε → K) : ∃ r, tFunc mod st eps .none false = .ok r ∧
      (r.flag = 0 ↔ ∃ l k X, l ≤ lMax ∧ k ≤ kMax ∧ (k = 0 → l = 0) ∧ ExpectedPath mod l k st eps X ∧
        Spec.PassesTests D.xbar (Spec.ruleAt (Spec.asSolved D) (lagVal lay st) eps (Spec.declared lay X)) (lMax + 1) l k) := by
  obtain ⟨c, hm⟩ := genSys_ok h.perm h.gen
  obtain ⟨M', hS⟩ := hm.eng
  have hz := h.states
  have hf := noLagFwd_of_not_expected (Z0 := Z0) (Z1 := Z1) hlag
  have hX : ∀ {l' k'}, l' ≤ lMax → k' ≤ kMax → ExpectedPath mod l' k' st eps (xPath c l' k' (q0Of st eps)) := fun hl' hk' =>
    (expectedPath_iff hm h.orc h.noTiny h.square h.states hf hl' hk' st eps _).2 fun _ => rfl
  have hv : ∀ {l' k'}, l' ≤ lMax → k' ≤ kMax → ∀ s, pathValue (ff lay) c (q0Of st eps) l' k' s =
      Spec.ruleAt (Spec.asSolved D) (lagVal lay st) eps (Spec.declared lay (xPath c l' k' (q0Of st eps))) s :=
    fun hl' hk' s => pathValue_rule h hm hlag hself hl' hk' st eps s
  have hxb : mod.xbar = D.xbar := hm.xbar
  obtain ⟨l, k, flag, hfd, hl, hk, hcase⟩ := findLk_cases (xbar := mod.xbar) (checkCnst_reads hS (q0Of st eps)) (by omega)
    (show 1 < kMax + 1 by omega)
  have hrun := tFunc_find hm st eps hfd (by omega) (by omega)
  refine ⟨_, hrun, fun h0 => ?_, fun hp => ?_⟩
  · simp only at h0
    rcases hcase with ⟨h1, h2, h3, h4⟩ | ⟨h1, h2⟩ | ⟨h1, h2, h3⟩
    · subst h1 h2
      refine ⟨0, 0, _, Nat.zero_le _, Nat.zero_le _, fun _ => rfl, hX (Nat.zero_le _) (Nat.zero_le _), .inl ⟨rfl, fun j hj => ?_⟩⟩
      have := h4 j hj
      simp only [slotPeriod] at this
      rw [hv (show j ≤ lMax by omega) (Nat.zero_le _), hxb] at this
      have e : Spec.declared lay (xPath c j 0 (q0Of st eps)) = Spec.declared lay (xPath c 0 0 (q0Of st eps)) := by
        funext s v
        unfold Spec.declared
        rw [(xPath_l0 h hm (show j ≤ lMax by omega) (q0Of st eps) s).2]
      rwa [e] at this
    · obtain ⟨c1, c2, c3, c4, c5, c6⟩ := h2
      simp only [slotPeriod, hv (show l ≤ lMax by omega) (show k ≤ kMax by omega), hxb] at c2 c3 c4 c5 c6
      exact ⟨l, k, _, by omega, by omega, by omega, hX (by omega) (by omega), .inr ⟨c1, c2, c3, c5, c6, c4⟩⟩
    · exact absurd h0 h3
  · obtain ⟨l', k', X, a1, a2, a3, a4, a5⟩ := hp
    obtain ⟨r', b1, b2⟩ := flag_zero_of_passes h hk1 hL hlag hself a1 a2 a4 a5 a3
    have : _ = r' := Except.ok.inj (hrun.symm.trans b1)
    rw [this]
    exact b2

/-- An equilibrium with one spell solves the model under that spell. -/
theorem Spec.OneSpellOf.solves {D' : Declared E ν ε K} (hself : D'.rb D'.cvar ≠ 1) {xlag : ν → K} {eps : ε → K} {x : Nat → ν → K} {l k : Nat}
    (hx : Spec.RuleEquilibrium D' xlag eps x) (ho : Spec.OneSpellOf D'.xbar (Spec.ruleAt D' xlag eps x) l k) :
    SolvesUnderSpell D' xlag eps x l k := by
  refine ⟨hx.eqs, fun s hs => ?_, fun s hs => ?_⟩
  · refine (rule_iff hself xlag eps x s).1 ?_
    rw [hx.con s, max_eq_right]
    by_contra hn
    exact hs (ho.only s (not_le.1 hn))
  · rw [hx.con s, max_eq_left (ho.all s hs.1 hs.2)]

theorem touchOf {xbar : K} {v : Nat → K} {l : Nat} (ho : Spec.OneSpellOf xbar v l 0) (L : Nat) :
    (∀ j < L, xbar < v j) ∨ ∃ j < L, Spec.OneSpellOf xbar v j 1 := by
  by_cases hh : ∀ j < L, xbar < v j
  · exact .inl hh
  · push Not at hh
    obtain ⟨j, hj, hle⟩ := hh
    refine .inr ⟨j, hj, fun s hs => ?_, fun s h1 h2 => ?_⟩
    · have := ho.only s hs
      omega
    · obtain rfl : s = j := by omega
      exact hle

/-- **C173.** If the solved model has an equilibrium with one spell inside the tables that ends on the linear solution, `t_func` does not report
an error. -/
theorem C173_found (h : Succeeded lay orc lMax kMax sched mod) (hk1 : 1 ≤ kMax) (hl1 : 1 ≤ lMax) (hL : lMax + 1 ≤ 999)
    (hlag : Spec.LagsNotExpected D) (hself : D.rb D.cvar ≠ 1) {l k : Nat} (hl : l ≤ lMax) (hk : k ≤ kMax) {st : p ⊕ z → K} {eps : ε → K}
    {x : Nat → ν → K} (hx : Spec.RuleEquilibrium (Spec.asSolved D) (lagVal lay st) eps x)
    (ho : Spec.OneSpellOf D.xbar (Spec.ruleAt (Spec.asSolved D) (lagVal lay st) eps x) l k) {n : Nat}
    (hj : Spec.JoinsLinear lay mod st eps x n) : ∃ r, tFunc mod st eps .none false = .ok r ∧ r.flag = 0 := by
  set v := Spec.ruleAt (Spec.asSolved D) (lagVal lay st) eps x with hv
  have key : ∀ l' k', l' ≤ lMax → k' ≤ kMax → (k' = 0 → l' = 0) → Spec.OneSpellOf D.xbar v l' k' →
      (k' = 0 → ∀ j < lMax + 1, D.xbar < v j) → ∃ r, tFunc mod st eps .none false = .ok r ∧ r.flag = 0 := by
    intro l' k' hl' hk' h00 ho' hslack
    have hsol := Spec.OneSpellOf.solves (D' := Spec.asSolved D) hself hx ho'
    have hj' : Spec.JoinsLinear lay mod st eps x (l' + k') := by
      rcases Nat.le_total n (l' + k') with hn | hn
      · exact joins_mono hj hn
      · obtain ⟨d, rfl⟩ := Nat.exists_eq_add_of_le hn
        exact joins_back_many h hlag hself hl1 hsol le_rfl d hj
    have hX := C148_unique_path h hlag hself hl' hk' st eps x hsol hj'
    have hd : Spec.declared lay (fun s => stateOf lay (x s)) = x := by
      funext s w
      unfold Spec.declared
      rw [val_stateOf lay h.square]
      rfl
    refine flag_zero_of_passes h hk1 hL hlag hself hl' hk' hX ?_ h00
    rw [hd, ← hv]
    by_cases hk0 : k' = 0
    · exact .inl ⟨hk0, hslack hk0⟩
    · have hb : ∀ s, ¬ (l' ≤ s ∧ s < l' + k') → D.xbar ≤ v s := fun s hs => not_lt.1 fun g => hs (ho'.only s g)
      exact .inr ⟨by omega, fun _ => hb 0 (by omega), fun _ => hb _ (by omega), ho'.all _ le_rfl (by omega),
        fun _ => ho'.all _ (by omega) (by omega), hb _ (by omega)⟩
  by_cases hk0 : k = 0
  · subst hk0
    rcases touchOf ho (lMax + 1) with hs | ⟨j, hj, ho'⟩
    · exact key 0 0 (Nat.zero_le _) (Nat.zero_le _) (fun _ => rfl)
        ⟨fun s hs => by have := ho.only s hs; omega, fun s _ hs => by omega⟩ fun _ => hs
    · exact key j 1 (by omega) hk1 (by omega) ho' (by omega)
  · exact key l k hl hk (by omega) ho (by omega)

/-- **C173**, the other way round: if `t_func` reports an error, the solved model has no equilibrium with one spell inside the tables. -/
theorem C173_flagged (h : Succeeded lay orc lMax kMax sched mod) (hk1 : 1 ≤ kMax) (hl1 : 1 ≤ lMax) (hL : lMax + 1 ≤ 999)
    (hlag : Spec.LagsNotExpected D) (hself : D.rb D.cvar ≠ 1) {st : p ⊕ z → K} {eps : ε → K} {r : Step z p K}
    (hr : tFunc mod st eps .none false = .ok r) (hflag : r.flag ≠ 0) {x : Nat → ν → K}
    (hx : Spec.RuleEquilibrium (Spec.asSolved D) (lagVal lay st) eps x) {n : Nat} (hj : Spec.JoinsLinear lay mod st eps x n) {l k : Nat}
    (ho : Spec.OneSpellOf D.xbar (Spec.ruleAt (Spec.asSolved D) (lagVal lay st) eps x) l k) : lMax < l ∨ kMax < k := by
  by_contra hn
  push Not at hn
  obtain ⟨r', h1, h2⟩ := C173_found h hk1 hl1 hL hlag hself hn.1 hn.2 hx ho hj
  rw [hr] at h1
  cases h1
  exact hflag h2

/-- The search, in terms of the declared paths: it returns `(0,0)` if the unconstrained path passes the tests, and otherwise the first spell whose
path passes the tests. -/
theorem search_general (h : Succeeded lay orc lMax kMax sched mod) (hk1 : 1 ≤ kMax) (hL : lMax + 1 ≤ 999) (hlag : Spec.LagsNotExpected D)
    (hself : D.rb D.cvar ≠ 1) {l k : Nat} (hl : l ≤ lMax) (hk : k ≤ kMax) {st : p ⊕ z → K} {eps : ε → K} {X : Nat → p ⊕ z → K}
    (hX : ExpectedPath mod l k st eps X)
    (hs : Spec.PassesTests D.xbar (Spec.ruleAt (Spec.asSolved D) (lagVal lay st) eps (Spec.declared lay X)) (lMax + 1) l k)
    (hfirst : ∀ l' k' Y, l' ≤ lMax → k' ≤ kMax → (k' = 0 → l' = 0) → ExpectedPath mod l' k' st eps Y →
      Spec.PassesTests D.xbar (Spec.ruleAt (Spec.asSolved D) (lagVal lay st) eps (Spec.declared lay Y)) (lMax + 1) l' k' →
      (l' = l ∧ k' = k) ∨ (1 ≤ k ∧ 1 ≤ k' ∧ LexLt (l, k) (l', k')) ∨ (k = 0 ∧ 1 ≤ k')) (h00 : k = 0 → l = 0) :
    tFunc mod st eps .none false = .ok ⟨X 0, l, k, 0⟩ := by
  obtain ⟨c, hm⟩ := genSys_ok h.perm h.gen
  obtain ⟨M', hS⟩ := hm.eng
  have hz := h.states
  have hf := noLagFwd_of_not_expected (Z0 := Z0) (Z1 := Z1) hlag
  have hiff : ∀ {l' k'}, l' ≤ lMax → k' ≤ kMax → ∀ Y, ExpectedPath mod l' k' st eps Y ↔ ∀ s, Y s = xPath c l' k' (q0Of st eps) s :=
    fun hl' hk' Y => expectedPath_iff hm h.orc h.noTiny h.square h.states hf hl' hk' st eps Y
  have hXs : X = xPath c l k (q0Of st eps) := funext ((hiff hl hk X).1 hX)
  subst hXs
  have hv : ∀ {l' k'}, l' ≤ lMax → k' ≤ kMax → ∀ s, pathValue (ff lay) c (q0Of st eps) l' k' s =
      Spec.ruleAt (Spec.asSolved D) (lagVal lay st) eps (Spec.declared lay (xPath c l' k' (q0Of st eps))) s :=
    fun hl' hk' s => pathValue_rule h hm hlag hself hl' hk' st eps s
  have hxb : mod.xbar = D.xbar := hm.xbar
  have hnb : NeverBinds (fun i l k => pathValue (ff lay) c (q0Of st eps) l k (slotPeriod l k i)) mod.xbar (lMax + 1) ↔
      ∀ j < lMax + 1, D.xbar < Spec.ruleAt (Spec.asSolved D) (lagVal lay st) eps (Spec.declared lay (xPath c 0 0 (q0Of st eps))) j := by
    unfold NeverBinds
    refine forall₂_congr fun j hj => ?_
    simp only [slotPeriod]
    rw [hv (show j ≤ lMax by omega) (Nat.zero_le _), hxb]
    have : Spec.declared lay (xPath c j 0 (q0Of st eps)) = Spec.declared lay (xPath c 0 0 (q0Of st eps)) := by
      funext s v
      unfold Spec.declared
      rw [(xPath_l0 h hm (show j ≤ lMax by omega) (q0Of st eps) s).2]
    rw [this]
  have hcons : ∀ {l' k'}, l' ≤ lMax → k' ≤ kMax →
      Consistent (fun i l k => pathValue (ff lay) c (q0Of st eps) l k (slotPeriod l k i)) mod.xbar l' k' →
      Spec.PassesTests D.xbar (Spec.ruleAt (Spec.asSolved D) (lagVal lay st) eps (Spec.declared lay (xPath c l' k' (q0Of st eps))))
        (lMax + 1) l' k' := by
    intro l' k' hl' hk' hc
    obtain ⟨c1, c2, c3, c4, c5, c6⟩ := hc
    simp only [slotPeriod, hv hl' hk', hxb] at c2 c3 c4 c5 c6
    exact .inr ⟨c1, c2, c3, c5, c6, c4⟩
  have hspec := findLk_spec (xbar := mod.xbar) (checkCnst_reads hS (q0Of st eps)) (by omega) hL (show 1 < kMax + 1 by omega)
  by_cases hk0 : k = 0
  · subst hk0
    obtain rfl := h00 rfl
    have hn := hnb.2 (by rcases hs with ⟨_, h1⟩ | ⟨h1, _⟩; exact h1; omega)
    rcases hspec with ⟨_, h2⟩ | ⟨h1, _⟩ | ⟨h1, _⟩
    · exact tFunc_find hm st eps h2 hl hk
    · exact absurd hn h1
    · exact absurd hn h1
  · have hc : Consistent (fun i l k => pathValue (ff lay) c (q0Of st eps) l k (slotPeriod l k i)) mod.xbar l k := by
      rcases hs with ⟨h1, _⟩ | ⟨h1, h2, h3, h4, h5, h6⟩
      · omega
      refine ⟨h1, fun g => ?_, fun g => ?_, ?_, ?_, fun g => ?_⟩ <;> simp only [slotPeriod, hv hl hk, hxb]
      · exact h2 g
      · exact h3 g
      · exact h6
      · exact h4
      · exact h5 g
    rcases hspec with ⟨h1, _⟩ | ⟨_, l', k', h1, h2⟩ | ⟨_, h1, _⟩
    · exfalso
      have := hfirst 0 0 _ (Nat.zero_le _) (Nat.zero_le _) (fun _ => rfl) ((hiff (Nat.zero_le _) (Nat.zero_le _) _).2 fun s => rfl)
        (.inl ⟨rfl, hnb.1 h1⟩)
      omega
    · obtain ⟨g1, g2, g3, g4⟩ := h1
      have := hfirst l' k' _ (by omega) (by omega) (fun h0 => by have := g3.binds; omega)
        ((hiff (by omega) (by omega) _).2 fun s => rfl) (hcons (by omega) (by omega) g3)
      rcases this with ⟨rfl, rfl⟩ | ⟨_, _, h3⟩ | h3
      · exact tFunc_find hm st eps h2 hl hk
      · exact absurd h3 (g4 l k (by omega) (by omega) hc)
      · omega
    · exact absurd hc (h1 l k (by omega) (by omega))

/-- No spell inside the tables other than `(l,k)` leads to an expected path that passes the tests. -/
def Spec.NoRivalOf (lay : Layout tol (yaml D Z0 Z1) H z p) (mod : Model z ε p o K) (lMax kMax : Nat) (st : p ⊕ z → K) (eps : ε → K)
    (l k : Nat) : Prop :=
  ∀ l' k' Y, l' ≤ lMax → k' ≤ kMax → ExpectedPath mod l' k' st eps Y →
    Spec.PassesTests D.xbar (Spec.ruleAt (Spec.asSolved D) (lagVal lay st) eps (Spec.declared lay Y)) (lMax + 1) l' k' →
    k' = k ∧ (k' = 0 ∨ l' = l)

/-- The search finds an equilibrium that satisfies the constraint and has no rival. -/
theorem finds_general (h : Succeeded lay orc lMax kMax sched mod) (hk1 : 1 ≤ kMax) (hL : lMax + 1 ≤ 999) (hlag : Spec.LagsNotExpected D)
    (hself : D.rb D.cvar ≠ 1) {l k : Nat} (hl : l ≤ lMax) (hk : k ≤ kMax) {st : p ⊕ z → K} {eps : ε → K} {X : Nat → p ⊕ z → K}
    (hX : ExpectedPath mod l k st eps X)
    (hs : Spec.SatisfiesOf D.xbar (Spec.ruleAt (Spec.asSolved D) (lagVal lay st) eps (Spec.declared lay X)) l k)
    (hr : 1 ≤ k → Spec.NoRivalOf lay mod lMax kMax st eps l k) (h00 : k = 0 → l = 0) :
    tFunc mod st eps .none false = .ok ⟨X 0, l, k, 0⟩ := by
  refine search_general h hk1 hL hlag hself hl hk hX ?_ ?_ h00
  · by_cases hk0 : k = 0
    · exact .inl ⟨hk0, fun j _ => hs.after j (by have := h00 hk0; omega)⟩
    · exact .inr ⟨by omega, fun _ => hs.before 0 (by omega), fun _ => hs.before _ (by omega), hs.during _ ⟨le_rfl, by omega⟩,
        fun _ => hs.during _ ⟨by omega, by omega⟩, (hs.after _ le_rfl).le⟩
  · intro l' k' Y hl' hk' h00' hY hf'
    by_cases hk0 : k = 0
    · have := h00 hk0
      by_cases hk0' : k' = 0
      · have := h00' hk0'
        omega
      · omega
    · obtain ⟨h1, h2⟩ := hr (by omega) l' k' Y hl' hk' hY hf'
      omega

/-- What is left of a spell after its first `t + 1` periods. -/
theorem satisfiesOf_later {xbar : K} {v w : Nat → K} {l k : Nat} (hs : Spec.SatisfiesOf xbar v l k) (t : Nat) (hw : ∀ s, w s = v (t + 1 + s)) :
    Spec.SatisfiesOf xbar w (elapsed l k (t + 1)).1 (elapsed l k (t + 1)).2 := by
  refine ⟨fun s h => ?_, fun s h => ?_, fun s h => ?_⟩ <;> rw [hw]
  · refine hs.before _ ?_
    unfold elapsed at h
    split_ifs at h <;> simp only at h <;> omega
  · refine hs.during _ ?_
    unfold BindsAt elapsed at h
    unfold BindsAt
    split_ifs at h <;> simp only at h <;> omega
  · refine hs.after _ ?_
    unfold elapsed at h
    split_ifs at h <;> simp only at h <;> omega

/-- The values that satisfy the constraint equation do not depend on the period in which the path is looked at. -/
theorem ruleAt_later (h : Succeeded lay orc lMax kMax sched mod) (hlag : Spec.LagsNotExpected D) {l k : Nat} (hl : l ≤ lMax) (hk : k ≤ kMax)
    {st0 : p ⊕ z → K} {eps : ε → K} {X : Nat → p ⊕ z → K} (hX : ExpectedPath mod l k st0 eps X) (t s : Nat) :
    Spec.ruleAt (Spec.asSolved D) (lagVal lay (X t)) 0 (Spec.declared lay fun s => X (t + 1 + s)) s =
      Spec.ruleAt (Spec.asSolved D) (lagVal lay st0) eps (Spec.declared lay X) (t + 1 + s) := by
  have hf := noLagFwd_of_not_expected (Z0 := Z0) (Z1 := Z1) hlag
  have h1 : shockAt (0 : ε → K) s = 0 := by cases s <;> rfl
  have h2 : shockAt eps (t + 1 + s) = 0 := by rw [show t + 1 + s = (t + s) + 1 by omega]; rfl
  have h3 : prev (lagVal lay (X t)) (Spec.declared lay fun s => X (t + 1 + s)) s =
      prev (lagVal lay st0) (Spec.declared lay X) (t + 1 + s) := by
    cases s with
    | zero =>
      have := expected_lagVal h hf hl hk hX (t + 1)
      exact this
    | succ s => rfl
  unfold Spec.ruleAt
  rw [h1, h2, h3]
  rfl

/-- **C173** (holds if the expected path satisfies the constraint in every period, and no other spell passes the tests while the spell lasts):
an impulse response follows the path that was expected at impact, also if the constraint contains lags. -/
theorem C173_expectations_come_true_partial (h : Succeeded lay orc lMax kMax sched mod) (hk1 : 1 ≤ kMax) (hL : lMax + 1 ≤ 999)
    (hlag : Spec.LagsNotExpected D) (hself : D.rb D.cvar ≠ 1) (st0 : p ⊕ z → K) (sl : List (ShockSpec ε K)) (eps : ε → K)
    (hsl : ∀ t, Spec.ShocksAt sl t (shockAt eps t)) {r : Step z p K} (hr : tFunc mod st0 eps .none false = .ok r) (hflag : r.flag = 0)
    {X : Nat → p ⊕ z → K} (hX : ExpectedPath mod r.l r.k st0 eps X)
    (hs : Spec.SatisfiesOf D.xbar (Spec.ruleAt (Spec.asSolved D) (lagVal lay st0) eps (Spec.declared lay X)) r.l r.k)
    (hriv : ∀ t, t + 1 < r.l + r.k → Spec.NoRivalOf lay mod lMax kMax (X t) 0 (elapsed r.l r.k (t + 1)).1 (elapsed r.l r.k (t + 1)).2)
    (T : Nat) :
    ∃ xs, irfs mod ⟨sl, .none, false, false⟩ st0 T = .ok xs ∧ xs.length = T ∧
      ∀ (t : Nat) s, xs[t]? = some s → s.state = X t ∧ (s.l, s.k) = elapsed r.l r.k t ∧ s.flag = 0 := by
  have hb : r.l ≤ lMax ∧ r.k ≤ kMax ∧ (r.k = 0 → r.l = 0) := by
    obtain ⟨c, hm⟩ := genSys_ok h.perm h.gen
    obtain ⟨M', hS⟩ := hm.eng
    have hz := h.states
    obtain ⟨l, k, flag, hf, hl, hk, hcase⟩ := findLk_cases (xbar := mod.xbar) (checkCnst_reads hS (q0Of st0 eps)) (by omega) (by omega)
    rw [tFunc_find hm st0 eps hf (by omega) (by omega)] at hr
    cases hr
    refine ⟨by simp only; omega, by simp only; omega, ?_⟩
    simp only
    rcases hcase with ⟨h1, _⟩ | ⟨_, h2⟩ | ⟨h1, _⟩
    · exact fun _ => h1
    · have := h2.binds; omega
    · exact fun _ => h1
  obtain ⟨hl, hk, h00⟩ := hb
  have hstep : ∀ t, tFunc mod (prev st0 X t) (shockAt eps t) .none false =
      .ok ⟨X t, (elapsed r.l r.k t).1, (elapsed r.l r.k t).2, 0⟩ := by
    intro t
    cases t with
    | zero =>
      have h1 : X 0 = r.state := by
        obtain ⟨r', g1, g2, _, _⟩ := C14_impose_found_equilibrium h hk1 st0 eps r hr
        obtain ⟨r'', g5, g6⟩ := hX 0
        rw [elapsed_zero] at g5
        have : r' = r'' := by
          have g7 : Except.ok r' = Except.ok (ε := PyErr) r'' := g1.symm.trans g5
          exact Except.ok.inj g7
        rw [g6, ← this, g2]
      rw [elapsed_zero]
      show tFunc mod st0 eps .none false = _
      rw [hr, h1, ← hflag]
    | succ t =>
      have hX' := C15_restart hX t
      have := finds_general h hk1 hL hlag hself (elapsed_le hl hk (t + 1)).1 (elapsed_le hl hk (t + 1)).2 hX'
        (satisfiesOf_later hs t fun s => ruleAt_later h hlag hl hk hX t s)
        (fun h1 => hriv t (by unfold elapsed at h1; split_ifs at h1 <;> simp only at h1 <;> omega))
        (fun h1 => by unfold elapsed at h1 ⊢; split_ifs at h1 ⊢ <;> simp only at h1 ⊢ <;> omega)
      exact this
  have hirf : ∀ t (s : IrfState z p K), s.state = prev st0 X t → s.flag = 0 →
      irfStep mod ⟨sl, .none, false, false⟩ s t = .ok ⟨X t, (elapsed r.l r.k t).1, (elapsed r.l r.k t).2, 0, s.mult⟩ := by
    intro t s h1 h2
    rw [irfStep_free (.inl rfl), h1, ← (shocksAt_iff sl _ _).1 (hsl _), hstep, h2]
    simp
  obtain ⟨xs, hx⟩ := irfRun_exists (m := mod) (a := ⟨sl, .none, false, false⟩) (fun t s => s.state = prev st0 X t ∧ s.flag = 0)
    (fun t s hs => ⟨_, hirf t s hs.1 hs.2, rfl, rfl⟩) T 0 ⟨st0, 0, 0, 0, false⟩ ⟨rfl, rfl⟩
  obtain ⟨h1, h2⟩ := irfRun_steps hx
  refine ⟨xs, hx, h1, ?_⟩
  intro t
  induction t with
  | zero =>
    intro s hs
    have := h2 0 ⟨st0, 0, 0, 0, false⟩ s rfl hs
    rw [hirf 0 _ rfl rfl] at this
    cases this
    exact ⟨rfl, rfl, rfl⟩
  | succ t ih =>
    intro s hs
    have ht : t < xs.length := by
      obtain ⟨h3, _⟩ := List.getElem?_eq_some_iff.1 hs
      omega
    have hp : xs[t]? = some xs[t] := List.getElem?_eq_getElem ht
    obtain ⟨g1, _, g3⟩ := ih _ hp
    have := h2 (t + 1) xs[t] s (by rw [List.getElem?_cons_succ]; exact hp) hs
    rw [Nat.zero_add, hirf (t + 1) _ g1 g3] at this
    cases this
    exact ⟨rfl, rfl, rfl⟩

/-- Announced disturbances `w` of the constraint equation of the solved model do not move the constrained variable against their own direction in
every period, unless nothing happens at all. -/
def Spec.NoReversalOf (lay : Layout tol (yaml D Z0 Z1) H z p) (mod : Model z ε p o K) : Prop :=
  ∀ (d : Nat → ν → K) (w : Nat → K) (n : Nat), (∀ s, EqsHold D 0 0 d s) →
    (∀ s, d s D.cvar = Spec.ruleAt (Spec.asSolved D) 0 0 d s + w s) →
    Spec.JoinsLinear lay mod 0 0 d n → (∀ s, w s * d s D.cvar ≤ 0) → d = 0

theorem ruleAt_sub (D : Declared E ν ε K) (xlag : ν → K) (eps : ε → K) (x y : Nat → ν → K) (s : Nat) :
    Spec.ruleAt D 0 0 (fun s => x s - y s) s = Spec.ruleAt D xlag eps x s - Spec.ruleAt D xlag eps y s := by
  have h := prev_sub xlag xlag x y s
  rw [sub_self] at h
  unfold Spec.ruleAt
  rw [h, shockAt_zero, Spec.ruleValue_eq, Spec.ruleValue_eq, Spec.ruleValue_eq, ← sub_div]
  congr 1
  simp only [dotProduct_sub, dotProduct_zero, Pi.sub_apply]
  ring

/-- **C173 (uniqueness).** Then the solved model has at most one equilibrium that ends on the linear solution, whatever the numbers and lengths of
its spells. -/
theorem C173_unique (h : Succeeded lay orc lMax kMax sched mod) (hP : Spec.NoReversalOf lay mod) {st0 : p ⊕ z → K} {eps : ε → K}
    {x y : Nat → ν → K} (hx : Spec.RuleEquilibrium (Spec.asSolved D) (lagVal lay st0) eps x)
    (hy : Spec.RuleEquilibrium (Spec.asSolved D) (lagVal lay st0) eps y) {n n' : Nat}
    (hjx : Spec.JoinsLinear lay mod st0 eps x n) (hjy : Spec.JoinsLinear lay mod st0 eps y n') : x = y := by
  have hd := joins_sub h (joins_mono hjx (le_max_left n n')) (joins_mono hjy (le_max_right n n'))
  rw [sub_self, sub_self] at hd
  have hnot := ruleAt_sub (Spec.asSolved D) (lagVal lay st0) eps x y
  have h0 := hP (fun s => x s - y s)
    (fun s => (x s D.cvar - Spec.ruleAt (Spec.asSolved D) (lagVal lay st0) eps x s) -
      (y s D.cvar - Spec.ruleAt (Spec.asSolved D) (lagVal lay st0) eps y s)) _ ?_ ?_ hd ?_
  · funext s
    exact sub_eq_zero.1 (congrFun h0 s)
  · intro s
    have e1 : EqsHold D (lagVal lay st0) eps x s := hx.eqs s
    have e2 : EqsHold D (lagVal lay st0) eps y s := hy.eqs s
    have := prev_sub (lagVal lay st0) (lagVal lay st0) x y s
    rw [sub_self] at this
    unfold EqsHold at *
    simp only [this, shockAt_zero, mulVec_sub, mulVec_zero]
    have := congrArg₂ (· - ·) e1 e2
    simp only [sub_zero] at this
    refine Eq.trans ?_ this
    abel
  · intro s
    rw [hnot]
    simp only [Pi.sub_apply]
    ring
  · intro s
    have c1 : x s D.cvar = max D.xbar _ := hx.con s
    have c2 : y s D.cvar = max D.xbar _ := hy.con s
    simp only [Pi.sub_apply]
    generalize Spec.ruleAt (Spec.asSolved D) (lagVal lay st0) eps x s = a at *
    generalize Spec.ruleAt (Spec.asSolved D) (lagVal lay st0) eps y s = b at *
    rw [c1, c2]
    rcases le_total D.xbar a with ha | ha <;> rcases le_total D.xbar b with hb | hb
    · rw [max_eq_right ha, max_eq_right hb]; simp
    · rw [max_eq_right ha, max_eq_left hb]
      nlinarith
    · rw [max_eq_left ha, max_eq_right hb]
      nlinarith
    · rw [max_eq_left ha, max_eq_left hb]; simp

/-- **C173 (partial).** Then the path that `t_func` reports, if it is an equilibrium in all periods, is the only one. Missing: that announced
disturbances do not reverse. -/
theorem C173_reported_partial (h : Succeeded lay orc lMax kMax sched mod) (hlag : Spec.LagsNotExpected D) (hself : D.rb D.cvar ≠ 1)
    (hP : Spec.NoReversalOf lay mod) {st0 : p ⊕ z → K} {eps : ε → K} {l k : Nat} (hl : l ≤ lMax) (hk : k ≤ kMax)
    {X : Nat → p ⊕ z → K} (hX : ExpectedPath mod l k st0 eps X)
    (hXe : Spec.RuleEquilibrium (Spec.asSolved D) (lagVal lay st0) eps (fun s v => lay.val (X s) (.inl v))) {x : Nat → ν → K}
    (hx : Spec.RuleEquilibrium (Spec.asSolved D) (lagVal lay st0) eps x) {n : Nat} (hj : Spec.JoinsLinear lay mod st0 eps x n) :
    ∀ s, X s = stateOf lay (x s) := by
  obtain ⟨y, hy1, hy2, hy3⟩ := (C148_characterisation h hlag hself hl hk st0 eps X).1 hX
  have hy : (fun s v => lay.val (X s) (.inl v)) = y := by
    funext s v
    rw [hy1 s, val_stateOf lay h.square]
    rfl
  rw [hy] at hXe
  obtain rfl := C173_unique h hP hx hXe hj hy3
  exact hy1

end Yaml

end Pydsge
