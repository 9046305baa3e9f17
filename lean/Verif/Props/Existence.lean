import Verif.Lemmas.Disturbed
import Verif.Lemmas.Lcp

/-!
# C181: if announced disturbances do not reverse, there is an equilibrium for every horizon, and tables of every size can be computed
-/

set_option autoImplicit false
set_option linter.unusedSectionVars false
set_option linter.unusedSimpArgs false

namespace Pydsge

open Matrix Pydsge.Engine Pydsge.Spec Pydsge.Tools Pydsge.GenSys

variable {E ν ε o K : Type} [Fintype E] [Fintype ν] [Fintype ε] [Fintype o]
  [DecidableEq E] [DecidableEq ν] [DecidableEq ε] [Field K] [LinearOrder K] [IsStrictOrderedRing K]
variable {H z p : Type} [DecidableEq H] [Fintype H] [Fintype z] [Fintype p] [DecidableEq z] [DecidableEq p]
variable {D : Declared E ν ε K} {Z0 : Matrix o ν K} {Z1 : o → K} {tol : K} [DecidablePred (inall tol (yaml D Z0 Z1))]
  {lay : Layout tol (yaml D Z0 Z1) H z p}
  {orc : Oracle (Rows E H ε) (z ⊕ ε) p K} {lMax kMax : Nat} {sched : Nat → List Nat} {mod : Model z ε p o K}
  {n : Nat} {Q Q' : Nat → z ⊕ ε → K} {P P' : Nat → p → K} {w : Nat → K}

/-- An equilibrium in which the constraint is in force in the first `n` periods: all equations hold in all periods, in the first `n` periods the
constrained variable is the larger one of the bound and the value that satisfies the constraint equation, and from period `n` on the linear
solution is followed. -/
structure Spec.EquilibriumUpTo (lay : Layout tol (yaml D Z0 Z1) H z p) (mod : Model z ε p o K) (st0 : p ⊕ z → K) (eps : ε → K) (n : Nat)
    (x : Nat → ν → K) : Prop where
  eqs : ∀ s, EqsHold D (lagVal lay st0) eps x s
  con : ∀ s < n, x s D.cvar = max D.xbar (Spec.ruleAt (Spec.asSolved D) (lagVal lay st0) eps x s)
  joins : Spec.JoinsLinear lay mod st0 eps x n

theorem lagVal_zero_of (h : Succeeded lay orc lMax kMax sched mod) : lagVal lay (0 : p ⊕ z → K) = 0 := by
  have := stateOf_sub lay (0 : ν → K) 0
  rw [sub_self, sub_self] at this
  rw [← this]
  exact lagVal_stateOf lay h.square 0

/-- The difference of two paths that solve the equations from the same start. -/
theorem eqs_sub {xlag : ν → K} {eps : ε → K} {x y : Nat → ν → K} {s : Nat} (h1 : EqsHold D xlag eps x s) (h2 : EqsHold D xlag eps y s) :
    EqsHold D 0 0 (fun s => x s - y s) s := by
  have := prev_sub xlag xlag x y s
  rw [sub_self] at this
  unfold EqsHold at *
  simp only [this, shockAt_zero, mulVec_sub, mulVec_zero]
  have := congrArg₂ (· - ·) h1 h2
  simp only [sub_zero] at this
  refine Eq.trans ?_ this
  abel

/-- Two paths that solve the equations and join the linear solution are the same, if the disturbances that make the difference are against the
difference in all periods. -/
theorem same_of_noReversal (h : Succeeded lay orc lMax kMax sched mod) (hP : Spec.NoReversalOf lay mod) {st0 : p ⊕ z → K} {eps : ε → K}
    {x y : Nat → ν → K} {n n' : Nat} (hx : ∀ s, EqsHold D (lagVal lay st0) eps x s) (hy : ∀ s, EqsHold D (lagVal lay st0) eps y s)
    (hjx : Spec.JoinsLinear lay mod st0 eps x n) (hjy : Spec.JoinsLinear lay mod st0 eps y n')
    (hw : ∀ s, ((x s D.cvar - Spec.ruleAt (Spec.asSolved D) (lagVal lay st0) eps x s) -
      (y s D.cvar - Spec.ruleAt (Spec.asSolved D) (lagVal lay st0) eps y s)) * (x s D.cvar - y s D.cvar) ≤ 0) : x = y := by
  have hd := joins_sub h (joins_mono hjx (le_max_left n n')) (joins_mono hjy (le_max_right n n'))
  rw [sub_self, sub_self] at hd
  have h0 := hP (fun s => x s - y s)
    (fun s => (x s D.cvar - Spec.ruleAt (Spec.asSolved D) (lagVal lay st0) eps x s) -
      (y s D.cvar - Spec.ruleAt (Spec.asSolved D) (lagVal lay st0) eps y s)) _ (fun s => eqs_sub (hx s) (hy s)) (fun s => ?_) hd hw
  · funext s
    exact sub_eq_zero.1 (congrFun h0 s)
  · rw [ruleAt_sub (Spec.asSolved D) (lagVal lay st0) eps x y]
    simp only [Pi.sub_apply]
    ring

/-- Where the linear solution is followed, the constraint equation holds. -/
theorem rule_of_joins (h : Succeeded lay orc lMax kMax sched mod) (hlag : Spec.LagsNotExpected D) (hself : D.rb D.cvar ≠ 1)
    {st0 : p ⊕ z → K} {eps : ε → K} {x : Nat → ν → K} (hj : Spec.JoinsLinear lay mod st0 eps x n) {s : Nat} (hs : n ≤ s) :
    x s D.cvar = Spec.ruleAt (Spec.asSolved D) (lagVal lay st0) eps x s := by
  have h1 := (joins_iff_lin h).1 hj s hs
  set q := q0Of (prev st0 (fun s => stateOf lay (x s)) s) (shockAt eps s) with hq
  have hd : Disturbed lay mod.omg mod.lam 0 (linQ mod.lam q) (fun s => mod.omg *ᵥ linQ mod.lam q s) 0 := by
    refine ⟨fun s => ?_, fun s _ => ⟨rfl, rfl⟩⟩
    rw [Pi.zero_apply, zero_smul, add_zero, ← sysOf_slack h.orc]
    exact succeeded_klein h (linQ mod.lam q s)
  obtain ⟨-, h2, -⟩ := disturbed_declared h hlag hself hd (st0 := prev st0 (fun s => stateOf lay (x s)) s) (eps := shockAt eps s) hq
  have h3 := h2 0
  have e1 : declQP lay (linQ mod.lam q) (fun s => mod.omg *ᵥ linQ mod.lam q s) 0 = x s := by
    rw [h1]; rfl
  have e2 : lagVal lay (prev st0 (fun s => stateOf lay (x s)) s) = prev (lagVal lay st0) x s := by
    cases s with
    | zero => rfl
    | succ s => exact lagVal_stateOf lay h.square _
  unfold Spec.ruleAt at h3 ⊢
  rw [Pi.zero_apply, add_zero, e2, e1] at h3
  exact h3

/-- Extend by zero. -/
def extW (w : Fin n → K) (s : Nat) : K := if hs : s < n then w ⟨s, hs⟩ else 0

theorem extW_fin (w : Fin n → K) (i : Fin n) : extW w i = w i := by
  unfold extW
  rw [dif_pos i.2]

theorem extW_late (w : Fin n → K) {s : Nat} (hs : n ≤ s) : extW w s = 0 := by
  unfold extW
  rw [dif_neg (by omega)]

theorem extW_add (w v : Fin n → K) : extW (w + v) = extW w + extW v := by
  funext s
  unfold extW
  simp only [Pi.add_apply]
  split_ifs <;> simp

theorem extW_smul (c : K) (w : Fin n → K) : extW (c • w) = c • extW w := by
  funext s
  unfold extW
  simp only [Pi.smul_apply]
  split_ifs <;> simp

section
variable (h : Succeeded lay orc lMax kMax sched mod) (hlag : Spec.LagsNotExpected D) (hself : D.rb D.cvar ≠ 1) (hP : Spec.NoReversalOf lay mod)
include h hlag hself hP

/-- Disturbances determine the path. -/
theorem disturbed_unique (h1 : Disturbed lay mod.omg mod.lam n Q P w) (h2 : Disturbed lay mod.omg mod.lam n Q' P' w) (h0 : Q 0 = Q' 0) :
    declQP lay Q P = declQP lay Q' P' := by
  have e0 : Q 0 = q0Of (Sum.elim (0 : p → K) (fun i => Q 0 (.inl i))) (fun e => Q 0 (.inr e)) := by
    funext j
    rcases j with i | e <;> rfl
  obtain ⟨a1, a2, a3⟩ := disturbed_declared h hlag hself h1 e0
  obtain ⟨b1, b2, b3⟩ := disturbed_declared h hlag hself h2 (h0.symm.trans e0)
  refine same_of_noReversal h hP a1 b1 a3 b3 fun s => ?_
  rw [a2 s, b2 s]
  simp

/-- The response of the constrained variable to disturbances in the first `n` periods. -/
theorem response_exists (n : Nat) : ∃ M : (Fin n → K) →ₗ[K] (Fin n → K), Lcp.NoSignReversed M ∧
    ∀ v : Fin n → K, ∃ Q P, Disturbed lay mod.omg mod.lam n Q P (extW v) ∧ Q 0 = 0 ∧ ∀ i : Fin n, M v i = declQP lay Q P i D.cvar := by
  choose Q P hQP h0 using fun v : Fin n → K => disturbed_some h hlag hself hP n (extW v) (fun s hs => extW_late v hs) 0
  refine ⟨⟨⟨fun v i => declQP lay (Q v) (P v) i D.cvar, fun a b => ?_⟩, fun c a => ?_⟩, fun v hv => ?_, fun v => ⟨Q v, P v, hQP v, h0 v, fun i => rfl⟩⟩
  · funext i
    have h1 := (hQP a).add (hQP b)
    rw [← extW_add] at h1
    have := disturbed_unique h hlag hself hP (hQP (a + b)) h1 (by rw [h0, Pi.add_apply, h0, h0, add_zero])
    rw [this, declQP_add]
    rfl
  · funext i
    have h1 := (hQP a).smul c
    rw [← extW_smul] at h1
    have := disturbed_unique h hlag hself hP (hQP (c • a)) h1 (by rw [h0, Pi.smul_apply, h0, smul_zero])
    show declQP lay (Q (c • a)) (P (c • a)) i D.cvar = c * declQP lay (Q a) (P a) i D.cvar
    rw [this, declQP_smul]
  · obtain ⟨a1, a2, a3⟩ := disturbed_declared h hlag hself (hQP v) (st0 := 0) (eps := 0)
      (by rw [h0]; funext j; rcases j with i | i <;> rfl)
    rw [lagVal_zero_of h] at a1 a2
    have hd := hP _ (extW v) n a1 a2 a3 (fun s => by
      by_cases hs : s < n
      · have := hv ⟨s, hs⟩
        rw [show extW v s = v ⟨s, hs⟩ from extW_fin v ⟨s, hs⟩]
        exact this
      · rw [extW_late v (by omega)]; simp)
    funext i
    have h2 := a2 i
    rw [hd, extW_fin] at h2
    have e : Spec.ruleAt (Spec.asSolved D) 0 0 (0 : Nat → ν → K) i = 0 := by
      have := ruleAt_sub (Spec.asSolved D) 0 0 (0 : Nat → ν → K) 0 i
      simp only [Pi.zero_apply, sub_self] at this
      exact this
    rw [e] at h2
    simpa using h2.symm

/-- All paths with disturbances in the first `n` periods, from one start. -/
theorem all_disturbed (n : Nat) (st0 : p ⊕ z → K) (eps : ε → K) : ∃ (M : (Fin n → K) →ₗ[K] (Fin n → K)) (y : Fin n → K), Lcp.NoSignReversed M ∧
    ∀ v : Fin n → K, ∃ Q P, Disturbed lay mod.omg mod.lam n Q P (extW v) ∧ Q 0 = q0Of st0 eps ∧
      ∀ i : Fin n, declQP lay Q P i D.cvar = y i + M v i := by
  obtain ⟨M, hM, hall⟩ := response_exists h hlag hself hP n
  obtain ⟨Q0, P0, hd0, h00⟩ := disturbed_some h hlag hself hP n 0 (fun _ _ => rfl) (q0Of st0 eps)
  refine ⟨M, fun i => declQP lay Q0 P0 i D.cvar, hM, fun v => ?_⟩
  obtain ⟨Q, P, hd, h0, hv⟩ := hall v
  have h1 := hd0.add hd
  rw [zero_add] at h1
  exact ⟨_, _, h1, by rw [Pi.add_apply, h00, h0, add_zero], fun i => by rw [declQP_add, hv]⟩

/-- **C181.** If announced disturbances of the constraint equation do not move the constrained variable against their own direction in all periods,
then from every state, with every shock and for every horizon there is exactly one equilibrium in which the constraint is in force up to that
horizon, whatever the number and the length of its spells. -/
theorem C181_exists_unique (st0 : p ⊕ z → K) (eps : ε → K) (n : Nat) : ∃! x, Spec.EquilibriumUpTo lay mod st0 eps n x := by
  obtain ⟨M, y, hM, hall⟩ := all_disturbed h hlag hself hP n st0 eps
  obtain ⟨v, hv, -⟩ := Lcp.exists_unique hM (fun i => y i - D.xbar)
  obtain ⟨Q, P, hd, h0, hQ⟩ := hall v
  obtain ⟨a1, a2, a3⟩ := disturbed_declared h hlag hself hd h0
  refine ⟨declQP lay Q P, ⟨a1, fun s hs => ?_, a3⟩, fun x hx => ?_⟩
  · obtain ⟨c1, c2, c3⟩ := hv ⟨s, hs⟩
    have e := hQ ⟨s, hs⟩
    have e2 := a2 s
    rw [show extW v s = v ⟨s, hs⟩ from extW_fin v ⟨s, hs⟩] at e2
    have e3 : y ⟨s, hs⟩ - D.xbar + M v ⟨s, hs⟩ = declQP lay Q P s D.cvar - D.xbar := by rw [e]; ring
    rw [e3] at c2 c3
    generalize Spec.ruleAt (Spec.asSolved D) (lagVal lay st0) eps (declQP lay Q P) s = a at *
    generalize declQP lay Q P s D.cvar = b at *
    rcases mul_eq_zero.1 c3 with c | c
    · rw [c, add_zero] at e2
      rw [← e2, max_eq_right (by linarith)]
    · rw [max_eq_left (by linarith)]
      linarith
  · refine same_of_noReversal h hP hx.eqs a1 hx.joins a3 fun s => ?_
    by_cases hs : s < n
    · obtain ⟨c1, c2, c3⟩ := hv ⟨s, hs⟩
      have e := hQ ⟨s, hs⟩
      have e2 := a2 s
      rw [show extW v s = v ⟨s, hs⟩ from extW_fin v ⟨s, hs⟩] at e2
      have e3 : y ⟨s, hs⟩ - D.xbar + M v ⟨s, hs⟩ = declQP lay Q P s D.cvar - D.xbar := by rw [e]; ring
      rw [e3] at c2 c3
      have e4 := hx.con s hs
      generalize Spec.ruleAt (Spec.asSolved D) (lagVal lay st0) eps (declQP lay Q P) s = a at *
      generalize declQP lay Q P s D.cvar = b at *
      generalize Spec.ruleAt (Spec.asSolved D) (lagVal lay st0) eps x s = a' at *
      generalize x s D.cvar = b' at *
      have f1 : b - a = v ⟨s, hs⟩ := by linarith
      rw [f1]
      have f2 : 0 ≤ b' - a' ∧ 0 ≤ b' - D.xbar ∧ (b' - a') * (b' - D.xbar) = 0 := by
        rw [e4]
        rcases le_total D.xbar a' with g | g
        · rw [max_eq_right g]; exact ⟨by simp, by linarith, by simp⟩
        · rw [max_eq_left g]; exact ⟨by linarith, by simp, by simp⟩
      have := Lcp.compl_diff (u := b' - a') (y := b' - D.xbar) (u' := v ⟨s, hs⟩) (y' := b - D.xbar) f2 ⟨c1, c2, c3⟩
      have e5 : b' - b = (b' - D.xbar) - (b - D.xbar) := by ring
      rw [e5]
      exact this
    · rw [a2 s, extW_late v (by omega), rule_of_joins h hlag hself hx.joins (by omega)]
      simp

/-- **C181**: it is an equilibrium in all periods if and only if its linear part stays above the bound; and all equilibria that join the linear
solution by period `n` are of this kind. -/
theorem C181_equilibrium_iff (st0 : p ⊕ z → K) (eps : ε → K) (n : Nat) (x : Nat → ν → K) :
    (Spec.RuleEquilibrium (Spec.asSolved D) (lagVal lay st0) eps x ∧ Spec.JoinsLinear lay mod st0 eps x n) ↔
      Spec.EquilibriumUpTo lay mod st0 eps n x ∧ ∀ s, n ≤ s → D.xbar ≤ x s D.cvar := by
  constructor
  · rintro ⟨h1, h2⟩
    refine ⟨⟨h1.eqs, fun s _ => h1.con s, h2⟩, fun s _ => ?_⟩
    have : x s D.cvar = max D.xbar _ := h1.con s
    rw [this]
    exact le_max_left _ _
  · rintro ⟨h1, h2⟩
    refine ⟨⟨h1.eqs, fun s => ?_⟩, h1.joins⟩
    by_cases hs : s < n
    · exact h1.con s hs
    · have e := rule_of_joins h hlag hself h1.joins (show n ≤ s by omega)
      have := h2 s (by omega)
      show x s D.cvar = max D.xbar _
      rw [← e, max_eq_right this]

/-- **C181**: once the linear part stays above the bound, a longer horizon gives the same equilibrium. -/
theorem C181_horizon {st0 : p ⊕ z → K} {eps : ε → K} {n n' : Nat} (hn : n ≤ n') {x x' : Nat → ν → K}
    (hx : Spec.EquilibriumUpTo lay mod st0 eps n x) (hb : ∀ s, n ≤ s → D.xbar ≤ x s D.cvar)
    (hx' : Spec.EquilibriumUpTo lay mod st0 eps n' x') : x' = x := by
  obtain ⟨h1, h2⟩ := (C181_equilibrium_iff h hlag hself hP st0 eps n x).2 ⟨hx, hb⟩
  exact (C181_exists_unique h hlag hself hP st0 eps n').unique hx' ⟨h1.eqs, fun s _ => h1.con s, joins_mono h2 hn⟩

/-- For every spell there is exactly one path. -/
theorem spell_exists_unique (l k : Nat) (st0 : p ⊕ z → K) (eps : ε → K) :
    ∃! x, Spec.SpellSolution lay mod.omg mod.lam st0 eps l k x := by
  obtain ⟨M, y, hM, hall⟩ := all_disturbed h hlag hself hP (l + k) st0 eps
  obtain ⟨v, hv⟩ := Lcp.pattern hM (fun i => y i - D.xbar) (fun i => decide (l ≤ i.1))
  obtain ⟨Q, P, hd, h0, hQ⟩ := hall v
  obtain ⟨a1, a2, a3⟩ := disturbed_declared h hlag hself hd h0
  have hb : ∀ s, BindsAt l k s → declQP lay Q P s D.cvar = D.xbar := by
    intro s hs
    have hs' : s < l + k := hs.2
    have h1 := hv ⟨s, hs'⟩
    rw [if_pos (by simpa using hs.1)] at h1
    rw [hQ ⟨s, hs'⟩]
    linarith
  have hsl : ∀ s, ¬ BindsAt l k s → declQP lay Q P s D.cvar = Spec.ruleAt (Spec.asSolved D) (lagVal lay st0) eps (declQP lay Q P) s := by
    intro s hs
    rw [a2 s]
    have : extW v s = 0 := by
      by_cases hs' : s < l + k
      · have h1 := hv ⟨s, hs'⟩
        rw [if_neg (by simp only [decide_eq_true_eq]; intro g; exact hs ⟨g, hs'⟩)] at h1
        exact (extW_fin v ⟨s, hs'⟩).trans h1
      · exact extW_late v (by omega)
    rw [this, add_zero]
  refine ⟨declQP lay Q P, ⟨⟨a1, fun s hs => (rule_iff (D := Spec.asSolved D) hself _ _ _ s).1 (hsl s hs), hb⟩, (joins_iff_lin h).1 a3⟩, fun x hx => ?_⟩
  refine same_of_noReversal h hP (fun s => hx.solves.eqs s) a1 ((joins_iff_lin h).2 hx.joins) a3 fun s => ?_
  by_cases hs : BindsAt l k s
  · have e : x s D.cvar = D.xbar := hx.solves.binding s hs
    rw [hb s hs, e]
    simp
  · have e : x s D.cvar = _ := (rule_iff (D := Spec.asSolved D) hself (lagVal lay st0) eps x s).2 (hx.solves.slack s hs)
    rw [← hsl s hs, ← e]
    simp

/-- **C181**: and then `gen_sys` can solve the model with tables of every size: no singular matrix is met for any number of periods. -/
theorem C181_tables_of_any_size (lMax' kMax' : Nat) {sched' : Nat → List Nat} (hs : ∀ l < lMax' + 1, (sched' l).Perm (List.range (kMax' + 1))) :
    ∃ mod', genSys lay orc lMax' kMax' sched' = .ok mod' := by
  obtain ⟨c, hm⟩ := genSys_ok h.perm h.gen
  obtain ⟨h1, h2, -⟩ := regular_of_noReversal h hlag hself hP
  exact (C171_solved_iff_general h.orc h.noTiny h.square hlag hself hs).2 ⟨mod.omg, mod.lam, hm.kl, (controls_iff h.orc).2 ⟨h1, h2⟩,
    fun l _ k _ st0 eps => spell_exists_unique h hlag hself hP l k st0 eps⟩

/-- **C181**: if `t_func` reports an error, the equilibrium exists nevertheless for every horizon `n`: only that it is not one spell inside the
tables, or that its linear part does not stay above the bound. -/
theorem C181_flagged (hk1 : 1 ≤ kMax) (hl1 : 1 ≤ lMax) (hL : lMax + 1 ≤ 999) {st : p ⊕ z → K} {eps : ε → K} {r : Step z p K}
    (hr : tFunc mod st eps .none false = .ok r) (hflag : r.flag ≠ 0) (n : Nat) :
    ∃ x, Spec.EquilibriumUpTo lay mod st eps n x ∧ ((∃ s, n ≤ s ∧ x s D.cvar < D.xbar) ∨
      ¬ ∃ l k, l ≤ lMax ∧ k ≤ kMax ∧ Spec.OneSpellOf D.xbar (Spec.ruleAt (Spec.asSolved D) (lagVal lay st) eps x) l k) := by
  obtain ⟨x, hx, -⟩ := C181_exists_unique h hlag hself hP st eps n
  refine ⟨x, hx, ?_⟩
  by_cases hb : ∀ s, n ≤ s → D.xbar ≤ x s D.cvar
  · right
    rintro ⟨l, k, hl, hk, ho⟩
    obtain ⟨h1, h2⟩ := (C181_equilibrium_iff h hlag hself hP st eps n x).2 ⟨hx, hb⟩
    have := C173_flagged h hk1 hl1 hL hlag hself hr hflag h1 h2 ho
    omega
  · left
    push Not at hb
    exact hb

end

end Pydsge
