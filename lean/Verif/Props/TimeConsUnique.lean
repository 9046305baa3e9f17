import Verif.Props.FoundLagEx
import Verif.Props.Stability

/-!
# C174: unique equilibria are carried out as announced
-/

set_option autoImplicit false
set_option linter.unusedSectionVars false
set_option linter.unusedSimpArgs false

namespace Pydsge

open Matrix Pydsge.Engine Pydsge.Spec Pydsge.Tools Pydsge.GenSys

variable {E ν ε o K : Type} [Fintype E] [Fintype ν] [Fintype ε] [Fintype o]
  [DecidableEq E] [DecidableEq ν] [DecidableEq ε] [Field K] [LinearOrder K] [IsStrictOrderedRing K]
variable {H z p : Type} [DecidableEq H] [Fintype H] [Fintype z] [Fintype p] [DecidableEq z] [DecidableEq p]
section Yaml
variable {D : Declared E ν ε K} {Z0 : Matrix o ν K} {Z1 : o → K} {tol : K} [DecidablePred (inall tol (yaml D Z0 Z1))]
  {lay : Layout tol (yaml D Z0 Z1) H z p}
  {orc : Oracle (Rows E H ε) (z ⊕ ε) p K} {lMax kMax : Nat} {sched : Nat → List Nat} {mod : Model z ε p o K}

/-- What `t_func` reports for the state `st` and the shocks `eps` is an equilibrium of the solved model: the path that it expects satisfies the
constraint in all periods, not only in those that are tested. -/
def Spec.ReportsEquilibrium (lay : Layout tol (yaml D Z0 Z1) H z p) (mod : Model z ε p o K) (st : p ⊕ z → K) (eps : ε → K) : Prop :=
  ∃ r X, tFunc mod st eps .none false = .ok r ∧ ExpectedPath mod r.l r.k st eps X ∧
    Spec.RuleEquilibrium (Spec.asSolved D) (lagVal lay st) eps (Spec.declared lay X)

theorem found_inside (h : Succeeded lay orc lMax kMax sched mod) (hk1 : 1 ≤ kMax) {st : p ⊕ z → K} {eps : ε → K} {r : Step z p K}
    (hr : tFunc mod st eps .none false = .ok r) : r.l ≤ lMax ∧ r.k ≤ kMax := by
  obtain ⟨c, hm⟩ := genSys_ok h.perm h.gen
  obtain ⟨M', hS⟩ := hm.eng
  have hz := h.states
  obtain ⟨l, k, flag, hf, hl, hk, hcase⟩ := findLk_cases (xbar := mod.xbar) (checkCnst_reads hS (q0Of st eps)) (by omega)
    (show 1 < kMax + 1 by omega)
  rw [tFunc_find hm st eps hf (by omega) (by omega)] at hr
  cases hr
  constructor <;> simp only <;> omega

/-- The rest of an equilibrium path is an equilibrium. -/
theorem equilibrium_later (h : Succeeded lay orc lMax kMax sched mod) (hlag : Spec.LagsNotExpected D) {l k : Nat} (hl : l ≤ lMax) (hk : k ≤ kMax)
    {st0 : p ⊕ z → K} {eps : ε → K} {X : Nat → p ⊕ z → K} (hX : ExpectedPath mod l k st0 eps X)
    (hXe : Spec.RuleEquilibrium (Spec.asSolved D) (lagVal lay st0) eps (Spec.declared lay X)) (t : Nat) :
    Spec.RuleEquilibrium (Spec.asSolved D) (lagVal lay (X t)) 0 (Spec.declared lay fun s => X (t + 1 + s)) := by
  refine ⟨fun s => ?_, fun s => ?_⟩
  · have h1 := hXe.eqs (t + 1 + s)
    have hf := noLagFwd_of_not_expected (Z0 := Z0) (Z1 := Z1) hlag
    have e1 : shockAt (0 : ε → K) s = 0 := by cases s <;> rfl
    have e2 : shockAt eps (t + 1 + s) = 0 := by rw [show t + 1 + s = (t + s) + 1 by omega]; rfl
    have e3 : prev (lagVal lay (X t)) (Spec.declared lay fun s => X (t + 1 + s)) s =
        prev (lagVal lay st0) (Spec.declared lay X) (t + 1 + s) := by
      cases s with
      | zero => exact expected_lagVal h hf hl hk hX (t + 1)
      | succ s => rfl
    unfold EqsHold at h1 ⊢
    rw [e1, e3]
    rw [e2] at h1
    exact h1
  · rw [ruleAt_later h hlag hl hk hX t s]
    exact hXe.con (t + 1 + s)

/-- **C174.** If announced disturbances of the constraint do not reverse, two equilibria that `t_func` can report at the same state with the same
shocks have the same path, whatever the spells. -/
theorem C174_one_path (h : Succeeded lay orc lMax kMax sched mod) (hlag : Spec.LagsNotExpected D) (hself : D.rb D.cvar ≠ 1)
    (hP : Spec.NoReversalOf lay mod) {st : p ⊕ z → K} {eps : ε → K} {l k l' k' : Nat} (hl : l ≤ lMax) (hk : k ≤ kMax) (hl' : l' ≤ lMax)
    (hk' : k' ≤ kMax) {X Y : Nat → p ⊕ z → K} (hX : ExpectedPath mod l k st eps X) (hY : ExpectedPath mod l' k' st eps Y)
    (hXe : Spec.RuleEquilibrium (Spec.asSolved D) (lagVal lay st) eps (Spec.declared lay X))
    (hYe : Spec.RuleEquilibrium (Spec.asSolved D) (lagVal lay st) eps (Spec.declared lay Y)) : X = Y := by
  obtain ⟨y, hy1, -, hy3⟩ := (C148_characterisation h hlag hself hl' hk' st eps Y).1 hY
  have hd : Spec.declared lay Y = y := by
    funext s w
    unfold Spec.declared
    rw [hy1, val_stateOf lay h.square]
    rfl
  rw [hd] at hYe
  funext s
  rw [C173_reported_partial h hlag hself hP hl hk hX hXe hYe hy3 s, hy1]

/-- **C174.** If announced disturbances of the constraint do not reverse and what `t_func` reports is an equilibrium, at impact and in all later
periods, then the impulse response follows in all periods the path that was expected at impact. -/
theorem C174_as_announced (h : Succeeded lay orc lMax kMax sched mod) (hk1 : 1 ≤ kMax) (hlag : Spec.LagsNotExpected D) (hself : D.rb D.cvar ≠ 1)
    (hP : Spec.NoReversalOf lay mod) (st0 : p ⊕ z → K) (sl : List (ShockSpec ε K)) (eps : ε → K)
    (hsl : ∀ t, Spec.ShocksAt sl t (shockAt eps t)) {r : Step z p K} (hr : tFunc mod st0 eps .none false = .ok r)
    {X : Nat → p ⊕ z → K} (hX : ExpectedPath mod r.l r.k st0 eps X)
    (hXe : Spec.RuleEquilibrium (Spec.asSolved D) (lagVal lay st0) eps (Spec.declared lay X))
    (hrep : ∀ t, Spec.ReportsEquilibrium lay mod (X t) 0) (T : Nat) :
    ∃ xs, irfs mod ⟨sl, .none, false, false⟩ st0 T = .ok xs ∧ xs.length = T ∧ ∀ (t : Nat) s, xs[t]? = some s → s.state = X t := by
  obtain ⟨hl, hk⟩ := found_inside h hk1 hr
  have hstep : ∀ t, ∃ r', tFunc mod (prev st0 X t) (shockAt eps t) .none false = .ok r' ∧ r'.state = X t := by
    have first : ∀ {st : p ⊕ z → K} {u : ε → K} {r' : Step z p K} {Y : Nat → p ⊕ z → K}, tFunc mod st u .none false = .ok r' →
        ExpectedPath mod r'.l r'.k st u Y → r'.state = Y 0 := by
      intro st u r' Y hr' hY
      obtain ⟨r1, g1, g2, _, _⟩ := C14_impose_found_equilibrium h hk1 st u r' hr'
      obtain ⟨r2, g5, g6⟩ := hY 0
      rw [elapsed_zero] at g5
      have : r1 = r2 := by
        have g7 : Except.ok r1 = Except.ok (ε := PyErr) r2 := g1.symm.trans g5
        exact Except.ok.inj g7
      rw [g6, ← this, g2]
    intro t
    cases t with
    | zero => exact ⟨r, hr, first hr hX⟩
    | succ t =>
      obtain ⟨r', Y, hr', hY, hYe⟩ := hrep t
      obtain ⟨hl', hk'⟩ := found_inside h hk1 hr'
      refine ⟨r', hr', ?_⟩
      have hX' := C15_restart hX t
      have := C174_one_path h hlag hself hP (elapsed_le hl hk (t + 1)).1 (elapsed_le hl hk (t + 1)).2 hl' hk' hX' hY
        (equilibrium_later h hlag hl hk hX hXe t) hYe
      rw [first hr' hY, ← this]
  have hirf : ∀ t (s : IrfState z p K), s.state = prev st0 X t →
      ∃ s', irfStep mod ⟨sl, .none, false, false⟩ s t = .ok s' ∧ s'.state = X t := by
    intro t s h1
    obtain ⟨r', g1, g2⟩ := hstep t
    rw [irfStep_free (.inl rfl), h1, ← (shocksAt_iff sl _ _).1 (hsl _), g1]
    exact ⟨_, rfl, g2⟩
  obtain ⟨xs, hx⟩ := irfRun_exists (m := mod) (a := ⟨sl, .none, false, false⟩) (fun t s => s.state = prev st0 X t)
    (fun t s hs => by obtain ⟨s', g1, g2⟩ := hirf t s hs; exact ⟨s', g1, g2⟩) T 0 ⟨st0, 0, 0, 0, false⟩ rfl
  obtain ⟨h1, h2⟩ := irfRun_steps hx
  refine ⟨xs, hx, h1, ?_⟩
  intro t
  induction t with
  | zero =>
    intro s hs
    have := h2 0 ⟨st0, 0, 0, 0, false⟩ s rfl hs
    obtain ⟨s', g1, g2⟩ := hirf 0 ⟨st0, 0, 0, 0, false⟩ rfl
    rw [g1] at this
    cases this
    exact g2
  | succ t ih =>
    intro s hs
    have ht : t < xs.length := by
      obtain ⟨h3, _⟩ := List.getElem?_eq_some_iff.1 hs
      omega
    have hp : xs[t]? = some xs[t] := List.getElem?_eq_getElem ht
    have := h2 (t + 1) xs[t] s (by rw [List.getElem?_cons_succ]; exact hp) hs
    obtain ⟨s', g1, g2⟩ := hirf (t + 1) xs[t] (ih _ hp)
    rw [Nat.zero_add, g1] at this
    cases this
    exact g2

/-- **C174**: and it returns to the steady state if the linear model does. -/
theorem C174_returns (h : Succeeded lay orc lMax kMax sched mod) (hst : Spec.LinearStable mod) (hk1 : 1 ≤ kMax) (hlag : Spec.LagsNotExpected D)
    (hself : D.rb D.cvar ≠ 1) (hP : Spec.NoReversalOf lay mod) (st0 : p ⊕ z → K) (sl : List (ShockSpec ε K)) (eps : ε → K)
    (hsl : ∀ t, Spec.ShocksAt sl t (shockAt eps t)) {r : Step z p K} (hr : tFunc mod st0 eps .none false = .ok r)
    {X : Nat → p ⊕ z → K} (hX : ExpectedPath mod r.l r.k st0 eps X)
    (hXe : Spec.RuleEquilibrium (Spec.asSolved D) (lagVal lay st0) eps (Spec.declared lay X))
    (hrep : ∀ t, Spec.ReportsEquilibrium lay mod (X t) 0) : Spec.IrfsReturn mod sl st0 := by
  intro δ hδ
  obtain ⟨N, hN⟩ := C132_expected_paths_return hst hX δ hδ
  refine ⟨N, fun T xs hxs t s ht hts => ?_⟩
  obtain ⟨xs', h1, _, h2⟩ := C174_as_announced h hk1 hlag hself hP st0 sl eps hsl hr hX hXe hrep T
  rw [hxs] at h1
  cases h1
  rw [h2 t s hts]
  exact hN t ht

/-- **C132** (holds under the hypotheses of C173): the impulse response returns to the steady state, also if the constraint contains lags, shocks or
the constrained variable itself. -/
theorem C132_irfs_return_lags_partial (h : Succeeded lay orc lMax kMax sched mod) (hst : Spec.LinearStable mod) (hk1 : 1 ≤ kMax)
    (hL : lMax + 1 ≤ 999) (hlag : Spec.LagsNotExpected D) (hself : D.rb D.cvar ≠ 1) (st0 : p ⊕ z → K) (sl : List (ShockSpec ε K)) (eps : ε → K)
    (hsl : ∀ t, Spec.ShocksAt sl t (shockAt eps t)) {r : Step z p K} (hr : tFunc mod st0 eps .none false = .ok r) (hflag : r.flag = 0)
    {X : Nat → p ⊕ z → K} (hX : ExpectedPath mod r.l r.k st0 eps X)
    (hs : Spec.SatisfiesOf D.xbar (Spec.ruleAt (Spec.asSolved D) (lagVal lay st0) eps (Spec.declared lay X)) r.l r.k)
    (hriv : ∀ t, t + 1 < r.l + r.k → Spec.NoRivalOf lay mod lMax kMax (X t) 0 (elapsed r.l r.k (t + 1)).1 (elapsed r.l r.k (t + 1)).2) :
    Spec.IrfsReturn mod sl st0 := by
  intro δ hδ
  obtain ⟨N, hN⟩ := C132_expected_paths_return hst hX δ hδ
  refine ⟨N, fun T xs hxs t s ht hts => ?_⟩
  obtain ⟨xs', h1, _, h2⟩ := C173_expectations_come_true_partial h hk1 hL hlag hself st0 sl eps hsl hr hflag hX hs hriv T
  rw [hxs] at h1
  cases h1
  rw [(h2 t s hts).1]
  exact hN t ht

end Yaml

/-! ## A case that meets the hypotheses -/

namespace Ex9

variable {lMax kMax : Nat} {sched : Nat → List Nat} {mod : Model (Fin 1) (Fin 1) (Fin 1) (Fin 1) Rat}

theorem declared_stateOf (h : Succeeded lay orc lMax kMax sched mod) (x : Nat → Fin 2 → Rat) :
    Spec.declared lay (fun s => stateOf lay (x s)) = x := by
  funext s w
  unfold Spec.declared
  rw [val_stateOf lay h.square]
  rfl

/-- The model of `Ex9` is stable. -/
theorem stable (h : Succeeded lay orc lMax kMax sched mod) : Spec.LinearStable mod := by
  intro st X hX
  obtain ⟨c, hm⟩ := genSys_ok h.perm h.gen
  have hkl := hm.kl
  simp only [orc, Except.ok.injEq, Prod.mk.injEq] at hkl
  have hs0 : ∀ s, shockAt (0 : Fin 1 → Rat) s = 0 := fun s => by cases s <;> rfl
  have hstep : ∀ s i, |X s i| ≤ 3/5 * |prev st X s (.inr 0)| := by
    intro s i
    obtain ⟨r, h1, h2⟩ := hX s
    rw [tFunc_linear_eq h, hs0, ← hkl.1, ← hkl.2] at h1
    cases h1
    rw [h2]
    have h0 := abs_nonneg (prev st X s (.inr 0))
    rcases i with i | i <;>
      simp [mulVec, dotProduct, Fintype.sum_sum_type, q0Of, omg, lam, abs_mul] <;> norm_num [abs_of_pos]
    linarith
  refine diesOut_of_geometric (C := |st (.inr 0)|) (q := 3/5) (by norm_num) (by norm_num) fun s => ?_
  induction s with
  | zero =>
    intro i
    refine (hstep 0 i).trans ?_
    rw [pow_zero, mul_one]
    have := abs_nonneg (st (.inr 0))
    show 3/5 * |st (.inr 0)| ≤ _
    linarith
  | succ s ih =>
    intro i
    refine (hstep (s + 1) i).trans ?_
    rw [pow_succ]
    have := ih (.inr 0)
    show 3/5 * |X s (.inr 0)| ≤ _
    linarith

/-- **C132**: the hypotheses of `C132_irfs_return_lags_partial` are met: the rule contains a lag, a shock and the rate itself, and the shock `-2` makes
it bind. -/
theorem C132_lags_hypotheses_met (hk : 1 ≤ kMax) (hL : lMax + 1 ≤ 999) (h : Succeeded lay orc lMax kMax sched mod) :
    Spec.IrfsReturn mod [((0 : Fin 1), -2, (0 : Int))] 0 := by
  obtain ⟨r, hr, hl, hk', hf, -, -⟩ := binding_run lMax kMax hk hL h
  exact C132_irfs_return_lags_partial h (stable h) hk hL lagsNotExpected self_ne 0 _ (fun _ => -2)
    (fun t => (shocksAt_iff _ _ _).2 (shkVec_single _ t).symm) hr hf (X := fun s => stateOf lay (shallow s))
    (by rw [hl, hk']; exact shallow_expected hk h) (by rw [hl, hk', declared_stateOf h]; exact shallow_satisfies)
    (by rw [hl, hk']; intro t ht; omega)

theorem deep_expected (hk : 2 ≤ kMax) (h : Succeeded lay orc lMax kMax sched mod) :
    ExpectedPath mod 0 2 0 (fun _ => -7) (fun s => stateOf lay (deep s)) :=
  C148_unique_path h lagsNotExpected self_ne (Nat.zero_le _) hk 0 _ deep
    (Spec.OneSpellOf.solves (D' := Spec.asSolved decl) self_ne deep_equilibrium deep_oneSpell) (deep_joins h)

/-- Under `(0,0)` and `(0,1)`, what the paths look like. -/
theorem short_paths (h : Succeeded lay orc lMax kMax sched mod) {k : Nat} (hk : k ≤ kMax) (hk1 : k ≤ 1) {st : Fin 1 ⊕ Fin 1 → Rat}
    {eps : Fin 1 → Rat} {Y : Nat → Fin 1 ⊕ Fin 1 → Rat} (hY : ExpectedPath mod 0 k st eps Y) :
    ∃ x, Spec.declared lay Y = x ∧ x 0 0 = 3/5 * st (.inr 0) + 4/5 * eps 0 ∧ x 1 0 = 3/5 * x 0 0 := by
  obtain ⟨x, hx1, hx2, hx3⟩ := (C148_characterisation h lagsNotExpected self_ne (Nat.zero_le _) hk st eps Y).1 hY
  have hd : Spec.declared lay Y = x := by
    rw [← declared_stateOf h x]
    exact congrArg _ (funext hx1)
  rw [joins_iff h] at hx3
  have e0 := eqs_iff.1 (show EqsHold decl _ _ x 0 from hx2.eqs 0)
  have j1 := hx3 1 (by omega)
  simp only [lag1, shockAt, lagVal_y, Pi.zero_apply, mul_zero, add_zero] at e0 j1
  refine ⟨x, hd, ?_, j1.1⟩
  rw [zero_add, j1.2] at e0
  linarith

theorem deep_run (hk : 2 ≤ kMax) (hL : lMax + 1 ≤ 999) (h : Succeeded lay orc lMax kMax sched mod) :
    tFunc mod 0 (fun _ => -7) .none false = .ok ⟨stateOf lay (deep 0), 0, 2, 0⟩ := by
  have hx : decl.xbar = -1 := rfl
  have hX := deep_expected hk h
  refine search_general h (by omega) hL lagsNotExpected self_ne (Nat.zero_le _) hk hX ?_ ?_ (by omega)
  · rw [declared_stateOf h]
    have ho := deep_oneSpell
    refine .inr ⟨by omega, by omega, by omega, ho.all 0 le_rfl (by omega), fun _ => ho.all _ (by omega) (by omega), ?_⟩
    rw [hx, deep_rule 1]
    norm_num
  · intro l' k' Y hl' hk' h00 hY hp
    by_cases hs : l' = 0 ∧ k' ≤ 1
    · exfalso
      obtain ⟨rfl, hk1⟩ := hs
      obtain ⟨x, hd, hx0, hx1⟩ := short_paths h hk' hk1 hY
      rw [hd, hx] at hp
      unfold Spec.PassesTests at hp
      simp only [rule_eq, lagVal_y, Pi.zero_apply] at hp
      rw [Pi.zero_apply] at hx0
      rcases hp with ⟨-, hp⟩ | ⟨h1, -, -, -, -, h3⟩
      · have := hp 0 (by omega)
        simp only [lag1, shockAt] at this
        linarith
      · obtain rfl : k' = 1 := by omega
        simp only [lag1, shockAt, Pi.zero_apply] at h3
        linarith
    · unfold LexLt
      simp only
      by_cases hk0 : k' = 0
      · have := h00 hk0
        omega
      · omega

/-- What is reported along the path that is expected after the shock `-7` is an equilibrium, in every period. -/
theorem deep_reports (hk : 2 ≤ kMax) (hL : lMax + 1 ≤ 999) (h : Succeeded lay orc lMax kMax sched mod) (t : Nat) :
    Spec.ReportsEquilibrium lay mod (stateOf lay (deep t)) 0 := by
  have hx : decl.xbar = -1 := rfl
  have hX := deep_expected hk h
  have hX' := C15_restart hX t
  have hXe := equilibrium_later h lagsNotExpected (Nat.zero_le _) hk hX (by rw [declared_stateOf h]; exact deep_equilibrium) t
  have hrule : ∀ s, Spec.ruleAt (Spec.asSolved decl) (lagVal lay (stateOf lay (deep t))) 0
      (Spec.declared lay fun s => stateOf lay (deep (t + 1 + s))) s = -3/2 * (3/5) ^ (t + s) := by
    intro s
    rw [ruleAt_later h lagsNotExpected (Nat.zero_le _) hk hX t s, declared_stateOf h, show t + 1 + s = (t + s) + 1 by omega, deep_rule]
  rcases t with _ | t
  · rw [show elapsed 0 2 (0 + 1) = (0, 1) from rfl] at hX'
    refine ⟨⟨stateOf lay (deep 1), 0, 1, 0⟩, _, ?_, hX', hXe⟩
    refine search_general h (by omega) hL lagsNotExpected self_ne (Nat.zero_le _) (by omega) hX' ?_ ?_ (by omega)
    · refine .inr ⟨le_rfl, by omega, by omega, ?_, by omega, ?_⟩
      · rw [hrule, hx]; norm_num
      · rw [hrule, hx]; norm_num
    · intro l' k' Y hl' hk' h00 hY hp
      by_cases hs : k' = 0
      · exfalso
        obtain rfl := hs
        obtain rfl := h00 rfl
        obtain ⟨x, hd, hx0, hx1⟩ := short_paths h hk' (by omega) hY
        rw [hd, hx] at hp
        have e : stateOf lay (deep 0) (.inr 0) = -6 := by
          show deep 0 0 = -6
          rw [deep_y]; norm_num
        unfold Spec.PassesTests at hp
        simp only [rule_eq, lagVal_y, e] at hp
        rw [e, Pi.zero_apply] at hx0
        rcases hp with ⟨-, hp⟩ | ⟨h1, -, -, -, -, h3⟩
        · have := hp 0 (by omega)
          simp only [lag1, shockAt, Pi.zero_apply] at this
          linarith
        · omega
      · unfold LexLt
        simp only
        omega
  · refine ⟨⟨stateOf lay (deep (t + 2)), 0, 0, 0⟩, _, ?_, ?_, hXe⟩
    · have e : elapsed 0 2 (t + 1 + 1) = (0, 0) := by
        unfold elapsed
        rw [if_neg (by omega)]
        simp
      rw [e] at hX'
      refine finds_general h (by omega) hL lagsNotExpected self_ne (Nat.zero_le _) (Nat.zero_le _) hX' ?_ (by omega) (fun _ => rfl)
      refine ⟨fun s hs => by omega, fun s hs => by have := hs.2; omega, fun s _ => ?_⟩
      rw [hrule, hx, show t + 1 + s = (t + s) + 1 by omega, pow_succ]
      have := pow_small (t + s)
      linarith
    · have e : elapsed 0 2 (t + 1 + 1) = (0, 0) := by
        unfold elapsed
        rw [if_neg (by omega)]
        simp
      rw [e] at hX'
      exact hX'

end Ex9

/-- **C174**: the hypotheses are met: the response to the shock `-7`, with a spell of two periods, in a model with a lag in the constraint. -/
theorem C174_hypotheses_met (lMax kMax : Nat) (hk : 2 ≤ kMax) (hL : lMax + 1 ≤ 999) : ∃ mod,
    Succeeded Ex9.lay Ex9.orc lMax kMax (serial kMax) mod ∧ Spec.NoReversalOf Ex9.lay mod ∧
    (∀ t, Spec.ReportsEquilibrium Ex9.lay mod (stateOf Ex9.lay (Ex9.deep t)) 0) ∧
    ∀ T, ∃ xs, irfs mod ⟨[(0, -7, 0)], .none, false, false⟩ 0 T = .ok xs ∧ xs.length = T ∧
      ∀ (t : Nat) s, xs[t]? = some s → s.state = stateOf Ex9.lay (Ex9.deep t) := by
  obtain ⟨mod, h⟩ := Ex9.succeeds (b := -1) lMax kMax (Ex9.serial_perm lMax kMax)
  refine ⟨mod, h, Ex9.noReversalOf h, Ex9.deep_reports hk hL h, fun T => ?_⟩
  exact C174_as_announced h (by omega) Ex9.lagsNotExpected Ex9.self_ne (Ex9.noReversalOf h) 0 [(0, -7, 0)] (fun _ => -7)
    (fun t => (shocksAt_iff _ _ _).2 (shkVec_single _ t).symm) (Ex9.deep_run hk hL h) (Ex9.deep_expected hk h)
    (by rw [Ex9.declared_stateOf h]; exact Ex9.deep_equilibrium) (Ex9.deep_reports hk hL h) T

end Pydsge
