import Verif.Props.FlagIff
import Verif.Props.Imposed

/-!
# C174: no error at impact means no error later

tools.py:256-331: the loop of `irfs` searches for an equilibrium anew in every period.
-/

set_option autoImplicit false
set_option linter.unusedSectionVars false
set_option linter.unusedSimpArgs false

namespace Pydsge

open Matrix Pydsge.Engine Pydsge.Spec Pydsge.Tools Pydsge.GenSys

variable {E ν ε o K : Type} [Fintype E] [Fintype ν] [Fintype ε] [Fintype o]
  [DecidableEq E] [DecidableEq ν] [DecidableEq ε] [Field K] [LinearOrder K] [IsStrictOrderedRing K]
variable {H z p : Type} [DecidableEq H] [Fintype H] [Fintype z] [Fintype p] [DecidableEq z] [DecidableEq p]
section Yaml
variable {D : Declared E ν ε K} {Z0 : Matrix o ν K} {Z1 : o → K} {tol : K} [DecidablePred (inall tol (yaml D Z0 Z1))]
  {lay : Layout tol (yaml D Z0 Z1) H z p} {orc : Oracle (Rows E H ε) (z ⊕ ε) p K} {lMax kMax : Nat}
  {sched : Nat → List Nat} {mod : Model z ε p o K}

/-- Where a spell inside the tables is an equilibrium, the search reports no error. -/
theorem found_of_equilibrium (h : Succeeded lay orc lMax kMax sched mod) (hl1 : 1 ≤ lMax) (hk1 : 1 ≤ kMax) (hL : lMax + 1 ≤ 999)
    (hlag : Spec.LagsNotExpected D) (hself : D.rb D.cvar ≠ 1) {l k : Nat} (hl : l ≤ lMax) (hk : k ≤ kMax) {st : p ⊕ z → K} {eps : ε → K}
    {X : Nat → p ⊕ z → K} (hX : ExpectedPath mod l k st eps X)
    (hXe : Spec.RuleEquilibrium (Spec.asSolved D) (lagVal lay st) eps (Spec.declared lay X)) : ∃ r, tFunc mod st eps .none false = .ok r ∧ r.flag = 0 := by
  obtain ⟨e1, e2⟩ := equilibrium_spell h hlag hself hl hk hX hXe
  obtain ⟨x, hx1, hx2, hx3⟩ := (C148_characterisation h hlag hself hl hk _ _ _).1 hX
  have hdecl : Spec.declared lay X = x := by
    funext s v
    unfold Spec.declared
    rw [hx1, val_stateOf lay h.square]
    rfl
  rw [hdecl] at hXe e1 e2
  exact C173_found h hk1 hl1 hL hlag hself hl hk hXe ⟨fun s hs => e1 s hs, fun s h1 h2 => (e2 s ⟨h1, h2⟩).2⟩ hx3

/-- Along the rest of an equilibrium the search finds one: what is left of the spell is an equilibrium inside the tables. -/
theorem later_found (h : Succeeded lay orc lMax kMax sched mod) (hl1 : 1 ≤ lMax) (hk1 : 1 ≤ kMax) (hL : lMax + 1 ≤ 999) (hlag : Spec.LagsNotExpected D)
    (hself : D.rb D.cvar ≠ 1) {l k : Nat} (hl : l ≤ lMax) (hk : k ≤ kMax) {st0 : p ⊕ z → K} {eps : ε → K} {X : Nat → p ⊕ z → K}
    (hX : ExpectedPath mod l k st0 eps X) (hXe : Spec.RuleEquilibrium (Spec.asSolved D) (lagVal lay st0) eps (Spec.declared lay X)) (t : Nat) :
    ∃ r', tFunc mod (X t) 0 .none false = .ok r' ∧ r'.flag = 0 :=
  found_of_equilibrium h hl1 hk1 hL hlag hself (elapsed_le hl hk (t + 1)).1 (elapsed_le hl hk (t + 1)).2 (C15_restart hX t)
    (equilibrium_later h hlag hl hk hX hXe t)

/-- A response that follows a path on which no search reports an error has flag 0. -/
theorem follows_flag {st0 : p ⊕ z → K} {sl : List (ShockSpec ε K)} {eps : ε → K} (hsl : ∀ t, Spec.ShocksAt sl t (shockAt eps t)) {X : Nat → p ⊕ z → K}
    (hfree : ∀ t, ∃ r', tFunc mod (prev st0 X t) (shockAt eps t) .none false = .ok r' ∧ r'.flag = 0) {T : Nat} {xs : List (IrfState z p K)}
    (hx : irfs mod ⟨sl, .none, false, false⟩ st0 T = .ok xs) (hst : ∀ (t : Nat) s, xs[t]? = some s → s.state = X t) (t : Nat) (s : IrfState z p K)
    (hs : xs[t]? = some s) : s.flag = 0 := by
  obtain ⟨-, h2⟩ := irfRun_steps hx
  have step : ∀ t (s0 s : IrfState z p K), s0.state = prev st0 X t → s0.flag = 0 → irfStep mod ⟨sl, .none, false, false⟩ s0 t = .ok s → s.flag = 0 := by
    intro t s0 s g1 g2 g3
    obtain ⟨r', g4, g5⟩ := hfree t
    rw [irfStep_free (.inl rfl), g1, ← (shocksAt_iff sl _ _).1 (hsl _), g4] at g3
    cases g3
    simp only [g2, g5, Nat.or_zero]
  induction t generalizing s with
  | zero =>
    have := h2 0 ⟨st0, 0, 0, 0, false⟩ s rfl hs
    exact step 0 ⟨st0, 0, 0, 0, false⟩ s rfl rfl this
  | succ t ih =>
    have ht : t < xs.length := by
      obtain ⟨h3, _⟩ := List.getElem?_eq_some_iff.1 hs
      omega
    have hp : xs[t]? = some xs[t] := List.getElem?_eq_getElem ht
    have := h2 (t + 1) xs[t] s (by rw [List.getElem?_cons_succ]; exact hp) hs
    rw [Nat.zero_add] at this
    exact step (t + 1) xs[t] s (hst t _ hp) (ih _ hp) this

/-- The state that is reported is the first one of the path that is expected. -/
theorem first_reported (h : Succeeded lay orc lMax kMax sched mod) (hk1 : 1 ≤ kMax) {st : p ⊕ z → K} {u : ε → K} {r : Step z p K} {Y : Nat → p ⊕ z → K}
    (hr : tFunc mod st u .none false = .ok r) (hY : ExpectedPath mod r.l r.k st u Y) : r.state = Y 0 := by
  obtain ⟨r1, g1, g2, _, _⟩ := C14_impose_found_equilibrium h hk1 st u r hr
  obtain ⟨r2, g5, g6⟩ := hY 0
  rw [elapsed_zero] at g5
  have : r1 = r2 := by
    have g7 : Except.ok r1 = Except.ok (ε := PyErr) r2 := g1.symm.trans g5
    exact Except.ok.inj g7
  rw [g6, ← this, g2]

/-- The new state of a period without an error satisfies the constraint equation exactly, whatever is expected later. -/
theorem realised_constraint (h : Succeeded lay orc lMax kMax sched mod) (hk1 : 1 ≤ kMax) (hlag : Spec.LagsNotExpected D) (hself : D.rb D.cvar ≠ 1)
    {st : p ⊕ z → K} {u : ε → K} {r : Step z p K} (hr : tFunc mod st u .none false = .ok r) (hf : r.flag = 0) :
    lay.val r.state (.inl D.cvar) =
      max D.xbar (Spec.ruleValue (Spec.asSolved D) (lagVal lay st) u (fun v => lay.val r.state (.inl v))) := by
  obtain ⟨hl, hk⟩ := found_inside h hk1 hr
  obtain ⟨Y, hY⟩ := expectedPath_exists h hl hk st u
  rw [first_reported h hk1 hr hY]
  have hs := tested_side h hlag hself hk1 hr hf hY (s := 0) (by unfold Spec.Untested; omega)
  have hp := C148_paths_solve h hlag hself hl hk st u Y hY
  unfold Spec.RightSide at hs
  by_cases hb : BindsAt r.l r.k 0
  · rw [if_pos hb] at hs
    have h3 : Spec.declared lay Y 0 D.cvar = D.xbar := hp.binding 0 hb
    exact h3.trans (max_eq_left hs).symm
  · rw [if_neg hb] at hs
    exact (rule_outside h hlag hself hl hk hY hb).trans (max_eq_right hs).symm

/-- **C116** (necessary condition): as long as an impulse response follows, without an error, the path that was expected at impact, this path satisfies the constraint equation.
Nothing is assumed on uniqueness or on what is reported in other periods. -/
theorem C116_only_if (h : Succeeded lay orc lMax kMax sched mod) (hk1 : 1 ≤ kMax) (hlag : Spec.LagsNotExpected D) (hself : D.rb D.cvar ≠ 1)
    {st0 : p ⊕ z → K} {sl : List (ShockSpec ε K)} {eps : ε → K} (hsl : ∀ t, Spec.ShocksAt sl t (shockAt eps t)) {l k : Nat} (hl : l ≤ lMax) (hk : k ≤ kMax)
    {X : Nat → p ⊕ z → K} (hX : ExpectedPath mod l k st0 eps X) {T : Nat} {xs : List (IrfState z p K)}
    (hx : irfs mod ⟨sl, .none, false, false⟩ st0 T = .ok xs) {n : Nat}
    (hst : ∀ t < n, ∃ s, xs[t]? = some s ∧ s.state = X t ∧ s.flag = 0) : ∀ t < n,
      Spec.declared lay X t D.cvar = max D.xbar (Spec.ruleAt (Spec.asSolved D) (lagVal lay st0) eps (Spec.declared lay X) t) := by
  intro t ht
  obtain ⟨-, h2⟩ := irfRun_steps hx
  obtain ⟨s, hs1, hs2, hs3⟩ := hst t ht
  have hprev : ∃ s0, ((⟨st0, 0, 0, 0, false⟩ : IrfState z p K) :: xs)[t]? = some s0 ∧ s0.state = prev st0 X t := by
    cases t with
    | zero => exact ⟨_, rfl, rfl⟩
    | succ t =>
      obtain ⟨s0, g1, g2, -⟩ := hst t (by omega)
      exact ⟨s0, by rw [List.getElem?_cons_succ]; exact g1, g2⟩
  obtain ⟨s0, g1, g2⟩ := hprev
  have g3 := h2 t s0 s g1 hs1
  rw [irfStep_free (.inl rfl), g2, Nat.zero_add, ← (shocksAt_iff sl _ _).1 (hsl _)] at g3
  generalize hr : tFunc mod (prev st0 X t) (shockAt eps t) .none false = R at g3
  rcases R with e | r
  · cases g3
  · have e3 := Except.ok.inj g3
    have hf : r.flag = 0 := by
      have : s0.flag ||| r.flag = 0 := by rw [← e3] at hs3; exact hs3
      exact (Nat.or_eq_zero_iff.1 this).2
    have hst' : r.state = X t := by rw [← hs2, ← e3]
    have := realised_constraint h hk1 hlag hself hr hf
    rw [hst', expected_lagVal h (noLagFwd_of_not_expected (Z0 := Z0) (Z1 := Z1) hlag) hl hk hX t] at this
    exact this

/-- **C116** (exact condition): where equilibria are unique, and what is reported without an error in later periods is an equilibrium, an impulse response follows without an error
the path that was expected at impact, over every horizon, if and only if this path satisfies the constraint in all periods. -/
theorem C116_exact (h : Succeeded lay orc lMax kMax sched mod) (hl1 : 1 ≤ lMax) (hk1 : 1 ≤ kMax) (hL : lMax + 1 ≤ 999) (hlag : Spec.LagsNotExpected D)
    (hself : D.rb D.cvar ≠ 1) (hP : Spec.NoReversalOf lay mod) (st0 : p ⊕ z → K) (sl : List (ShockSpec ε K)) (eps : ε → K)
    (hsl : ∀ t, Spec.ShocksAt sl t (shockAt eps t)) {r : Step z p K} (hr : tFunc mod st0 eps .none false = .ok r) (hf : r.flag = 0)
    {X : Nat → p ⊕ z → K} (hX : ExpectedPath mod r.l r.k st0 eps X)
    (hlater : ∀ t r', tFunc mod (X t) 0 .none false = .ok r' → r'.flag = 0 → Spec.ReportsEquilibrium lay mod (X t) 0) :
    (∀ T, ∃ xs, irfs mod ⟨sl, .none, false, false⟩ st0 T = .ok xs ∧ xs.length = T ∧ ∀ (t : Nat) s, xs[t]? = some s → s.state = X t ∧ s.flag = 0) ↔
      Spec.RuleEquilibrium (Spec.asSolved D) (lagVal lay st0) eps (Spec.declared lay X) := by
  obtain ⟨hl, hk⟩ := found_inside h hk1 hr
  constructor
  · intro g
    refine ⟨(C148_paths_solve h hlag hself hl hk st0 eps X hX).eqs, fun t => ?_⟩
    obtain ⟨xs, hx, hlen, hst⟩ := g (t + 1)
    refine C116_only_if h hk1 hlag hself hsl hl hk hX hx (n := t + 1) (fun s hs => ?_) t (by omega)
    have hp : xs[s]? = some (xs[s]'(by omega)) := List.getElem?_eq_getElem (by omega)
    exact ⟨_, hp, hst s _ hp⟩
  · intro hXe T
    have hno := later_found h hl1 hk1 hL hlag hself hl hk hX hXe
    obtain ⟨xs, hx, hlen, hst⟩ := C174_as_announced h hk1 hlag hself hP st0 sl eps hsl hr hX hXe (fun t => by
      obtain ⟨r', h1, h2⟩ := hno t
      exact hlater t r' h1 h2) T
    refine ⟨xs, hx, hlen, fun t s hs => ⟨hst t s hs, follows_flag hsl (fun t => ?_) hx hst t s hs⟩⟩
    cases t with
    | zero => exact ⟨r, hr, hf⟩
    | succ t => exact hno t

section Impact
variable (h : Succeeded lay orc lMax kMax sched mod) (hl1 : 1 ≤ lMax) (hk1 : 1 ≤ kMax) (hL : lMax + 1 ≤ 999) (hlag : Spec.LagsNotExpected D)
  (hself : D.rb D.cvar ≠ 1) (hF : Spec.FlagMeansEquilibrium lay mod)
include h hl1 hk1 hL hlag hself hF

omit hl1 hL in
/-- The path that is expected without an error is an equilibrium. -/
theorem impact_equilibrium {st0 : p ⊕ z → K} {eps : ε → K} {r : Step z p K} (hr : tFunc mod st0 eps .none false = .ok r) (hf : r.flag = 0)
    {X : Nat → p ⊕ z → K} (hX : ExpectedPath mod r.l r.k st0 eps X) :
    Spec.RuleEquilibrium (Spec.asSolved D) (lagVal lay st0) eps (Spec.declared lay X) := by
  obtain ⟨hl, hk⟩ := found_inside h hk1 hr
  obtain ⟨X', hX', hXe⟩ := hF st0 eps r hr hf
  obtain ⟨c, hm⟩ := genSys_ok h.perm h.gen
  have hz := h.states
  have hnl := noLagFwd_of_not_expected (Z0 := Z0) (Z1 := Z1) hlag
  have e : X' = X := by
    funext s
    rw [(expectedPath_iff hm h.orc h.noTiny h.square h.states hnl hl hk st0 eps X').1 hX' s,
      (expectedPath_iff hm h.orc h.noTiny h.square h.states hnl hl hk st0 eps X).1 hX s]
  rw [← e]
  exact hXe

/-- **C174.** If no error is reported at impact, none is reported in any later state of the expected path: what is left of the spell is an equilibrium inside the tables. This does
not need unique equilibria. -/
theorem C174_no_later_error {st0 : p ⊕ z → K} {eps : ε → K} {r : Step z p K} (hr : tFunc mod st0 eps .none false = .ok r) (hf : r.flag = 0)
    {X : Nat → p ⊕ z → K} (hX : ExpectedPath mod r.l r.k st0 eps X) (t : Nat) : ∃ r', tFunc mod (X t) 0 .none false = .ok r' ∧ r'.flag = 0 :=
  later_found h hl1 hk1 hL hlag hself (found_inside h hk1 hr).1 (found_inside h hk1 hr).2 hX (impact_equilibrium h hk1 hlag hself hF hr hf hX) t

/-- **C174** from conditions at impact only: where equilibria are unique, an impulse response without an error at impact has no error in any period, over any horizon, and follows the
path that was expected at impact. -/
theorem C174_from_impact (hP : Spec.NoReversalOf lay mod) (st0 : p ⊕ z → K) (sl : List (ShockSpec ε K)) (eps : ε → K)
    (hsl : ∀ t, Spec.ShocksAt sl t (shockAt eps t)) {r : Step z p K} (hr : tFunc mod st0 eps .none false = .ok r) (hf : r.flag = 0)
    {X : Nat → p ⊕ z → K} (hX : ExpectedPath mod r.l r.k st0 eps X) (T : Nat) :
    ∃ xs, irfs mod ⟨sl, .none, false, false⟩ st0 T = .ok xs ∧ xs.length = T ∧ ∀ (t : Nat) s, xs[t]? = some s → s.state = X t ∧ s.flag = 0 :=
  (C116_exact h hl1 hk1 hL hlag hself hP st0 sl eps hsl hr hf hX (fun t r' h1 h2 => by
    obtain ⟨Y, h3, h4⟩ := hF _ _ r' h1 h2
    exact ⟨r', Y, h1, h3, h4⟩)).2 (impact_equilibrium h hk1 hlag hself hF hr hf hX) T

/-- **C132**, **C174**: where equilibria are unique and the linear model is stable, an impulse response without an error at impact returns to the steady state. -/
theorem C132_irfs_return_from_impact (hst : Spec.LinearStable mod) (hP : Spec.NoReversalOf lay mod) (st0 : p ⊕ z → K) (sl : List (ShockSpec ε K)) (eps : ε → K)
    (hsl : ∀ t, Spec.ShocksAt sl t (shockAt eps t)) {r : Step z p K} (hr : tFunc mod st0 eps .none false = .ok r) (hf : r.flag = 0) :
    Spec.IrfsReturn mod sl st0 := by
  obtain ⟨X, hX, -⟩ := hF st0 eps r hr hf
  intro δ hδ
  obtain ⟨N, hN⟩ := C132_expected_paths_return hst hX δ hδ
  refine ⟨N, fun T xs hxs t s ht hts => ?_⟩
  obtain ⟨xs', h1, _, h2⟩ := C174_from_impact h hl1 hk1 hL hlag hself hF hP st0 sl eps hsl hr hf hX T
  rw [hxs] at h1
  cases h1
  rw [(h2 t s hts).1]
  exact hN t ht

end Impact
end Yaml

namespace Ex17

variable {b : Rat} {lMax kMax : Nat} {sched : Nat → List Nat} {mod : Model (Fin 1) (Fin 1) (Fin 1) (Fin 1) Rat}

/-- The model of `Ex17` is stable. -/
theorem linearStable (h : Succeeded (layB b) orc lMax kMax sched mod) : Spec.LinearStable mod := by
  intro st X hX
  obtain ⟨c, hm⟩ := genSys_ok h.perm h.gen
  have hkl := hm.kl
  simp only [orc, Except.ok.injEq, Prod.mk.injEq] at hkl
  have hs0 : ∀ s, shockAt (0 : Fin 1 → Rat) s = 0 := fun s => by cases s <;> rfl
  have hstep : ∀ s i, |X s i| ≤ 1/2 * |prev st X s (.inr 0)| := by
    intro s i
    obtain ⟨r, h1, h2⟩ := hX s
    rw [tFunc_linear_eq h, hs0, ← hkl.1, ← hkl.2] at h1
    cases h1
    rw [h2]
    have h0 := abs_nonneg (prev st X s (.inr 0))
    rcases i with i | i <;>
      simp [mulVec, dotProduct, Fintype.sum_sum_type, q0Of, omg, lam, abs_mul]
    norm_num [abs_of_pos]
    linarith
  refine diesOut_of_geometric (C := |st (.inr 0)|) (q := 1/2) (by norm_num) (by norm_num) fun s => ?_
  induction s with
  | zero =>
    intro i
    refine (hstep 0 i).trans ?_
    rw [pow_zero, mul_one]
    have := abs_nonneg (st (.inr 0))
    show 1/2 * |st (.inr 0)| ≤ _
    linarith
  | succ s ih =>
    intro i
    refine (hstep (s + 1) i).trans ?_
    rw [pow_succ]
    have := ih (.inr 0)
    show 1/2 * |X s (.inr 0)| ≤ _
    linarith

end Ex17

/-- **C174**, hypotheses at impact: after the shock `-10` the constraint is expected to bind for six periods; the response has no error over any horizon and
returns to the steady state. -/
theorem C174_from_impact_hypotheses_met (lMax kMax : Nat) (hl : 1 ≤ lMax) (hk : 6 ≤ kMax) (hL : lMax + 1 ≤ 999) : ∃ mod,
    Succeeded Ex17.lay Ex17.orc lMax kMax (serial kMax) mod ∧ Spec.LagsNotExpected Ex17.decl ∧ Ex17.decl.rb Ex17.decl.cvar ≠ 1 ∧
    Spec.FlagMeansEquilibrium Ex17.lay mod ∧ Spec.NoReversalOf Ex17.lay mod ∧ Spec.LinearStable mod ∧
    (∃ r, tFunc mod 0 (fun _ => -10) .none false = .ok r ∧ r.flag = 0 ∧ r.l = 0 ∧ r.k = 6) ∧
    Spec.IrfsReturn mod [((0 : Fin 1), (-10 : Rat), 0)] 0 ∧
    ∀ T, ∃ xs, irfs mod ⟨[((0 : Fin 1), (-10 : Rat), 0)], .none, false, false⟩ 0 T = .ok xs ∧ xs.length = T ∧
      ∀ (t : Nat) s, xs[t]? = some s → s.flag = 0 := by
  obtain ⟨mod, h⟩ := Ex17.succeeds (b := -1) lMax kMax (fun _ _ => List.Perm.refl _)
  obtain ⟨r, a1, a2, a3, a4, -⟩ := Ex17.run h (k := 6) (by omega) hk hL (st := 0) (eps := fun _ => -10) (by norm_num) (by norm_num)
  have hF := Ex17.flagMeansEquilibrium h (by omega)
  have hsl : ∀ t, Spec.ShocksAt [((0 : Fin 1), (-10 : Rat), 0)] t (shockAt (fun _ => (-10 : Rat)) t) := by
    intro t
    rw [shocksAt_iff]
    cases t with
    | zero =>
      funext i
      obtain rfl : i = 0 := Subsingleton.elim _ _
      simp [shkVec, shockAt]
    | succ t =>
      simp only [shkVec, List.foldl]
      rw [if_neg (by intro g; omega)]
      rfl
  refine ⟨mod, h, Ex17.lagsNotExpected, Ex17.self_ne, hF, Ex17.noReversalOf, Ex17.linearStable h, ⟨r, a1, a2, a3, a4⟩,
    C132_irfs_return_from_impact h hl (by omega) hL Ex17.lagsNotExpected Ex17.self_ne hF (Ex17.linearStable h) Ex17.noReversalOf 0 _ _ hsl a1 a2, fun T => ?_⟩
  obtain ⟨X, hX, -⟩ := hF _ _ r a1 a2
  obtain ⟨xs, h1, h2, h3⟩ := C174_from_impact h hl (by omega) hL Ex17.lagsNotExpected Ex17.self_ne hF Ex17.noReversalOf 0 [((0 : Fin 1), (-10 : Rat), 0)]
    (fun _ => -10) hsl a1 a2 hX T
  exact ⟨xs, h1, h2, fun t s hs => (h3 t s hs).2⟩

end Pydsge
