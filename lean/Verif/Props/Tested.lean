import Verif.Props.Durations
import Verif.Props.CompareEx

/-!
# C193: flag 0 and the periods that are not tested

engine.py:267-330 `find_lk`, `bruite_wrapper`: a spell `(l,k)` is tested in the periods `0`, `l-1`, `l`, `l+k-1` and `l+k`, the path without a spell in the first `l_max + 1` periods.
-/

set_option autoImplicit false
set_option linter.unusedSectionVars false
set_option linter.unusedSimpArgs false

namespace Pydsge

open Matrix Pydsge.Engine Pydsge.Spec Pydsge.Tools Pydsge.GenSys

variable {E ν ε o K : Type} [Fintype E] [Fintype ν] [Fintype ε] [Fintype o]
  [DecidableEq E] [DecidableEq ν] [DecidableEq ε] [Field K] [LinearOrder K] [IsStrictOrderedRing K]
variable {H z p : Type} [DecidableEq H] [Fintype H] [Fintype z] [Fintype p] [DecidableEq z] [DecidableEq p]
section Yaml
variable {D : Declared E ν ε K} {Z0 : Matrix o ν K} {Z1 : o → K} {tol : K} [DecidablePred (inall tol (yaml D Z0 Z1))]
  {lay : Layout tol (yaml D Z0 Z1) H z p}
  {orc : Oracle (Rows E H ε) (z ⊕ ε) p K} {lMax kMax : Nat} {sched : Nat → List Nat} {mod : Model z ε p o K}

/-- The periods that the search does not look at: with a spell `(l,k)` those strictly between the first and the last period before it, strictly inside it, and after the first
period after it; without a spell those after the first `L` periods. -/
def Spec.Untested (L l k s : Nat) : Prop :=
  (k = 0 ∧ L ≤ s) ∨ (1 ≤ k ∧ ((0 < s ∧ s + 1 < l) ∨ (l < s ∧ s + 1 < l + k) ∨ l + k < s))

/-- In period `s` the value `v` is on the side of the bound where the spell `(l,k)` has it. -/
def Spec.RightSide (xbar v : K) (l k s : Nat) : Prop := if BindsAt l k s then v ≤ xbar else xbar ≤ v

/-- On the linear path without shocks, a rule that is at or above the bound in the first period stays there. -/
def Spec.LinearStaysAbove (lay : Layout tol (yaml D Z0 Z1) H z p) (mod : Model z ε p o K) : Prop :=
  ∀ st Y, ExpectedPath mod 0 0 st 0 Y → D.xbar ≤ Spec.ruleAt (Spec.asSolved D) (lagVal lay st) 0 (Spec.declared lay Y) 0 →
    ∀ s, D.xbar ≤ Spec.ruleAt (Spec.asSolved D) (lagVal lay st) 0 (Spec.declared lay Y) s

/-- On every path that is expected with a spell inside the tables, the rule does not fall below the bound again once it is above (or, while the constraint does not bind, at it). -/
def Spec.StaysAbove (lay : Layout tol (yaml D Z0 Z1) H z p) (mod : Model z ε p o K) (lMax kMax : Nat) : Prop :=
  ∀ l k st e X, l ≤ lMax → k ≤ kMax → ExpectedPath mod l k st e X → ∀ s,
    (D.xbar < Spec.ruleAt (Spec.asSolved D) (lagVal lay st) e (Spec.declared lay X) s →
      D.xbar < Spec.ruleAt (Spec.asSolved D) (lagVal lay st) e (Spec.declared lay X) (s + 1)) ∧
    (¬ BindsAt l k s → D.xbar ≤ Spec.ruleAt (Spec.asSolved D) (lagVal lay st) e (Spec.declared lay X) s →
      D.xbar ≤ Spec.ruleAt (Spec.asSolved D) (lagVal lay st) e (Spec.declared lay X) (s + 1))

/-- The same for the first two periods only. -/
def Spec.FirstStepAbove (lay : Layout tol (yaml D Z0 Z1) H z p) (mod : Model z ε p o K) (lMax kMax : Nat) : Prop :=
  ∀ l k st e X, l ≤ lMax → k ≤ kMax → ExpectedPath mod l k st e X →
    (D.xbar < Spec.ruleAt (Spec.asSolved D) (lagVal lay st) e (Spec.declared lay X) 0 →
      D.xbar < Spec.ruleAt (Spec.asSolved D) (lagVal lay st) e (Spec.declared lay X) 1) ∧
    (¬ BindsAt l k 0 → D.xbar ≤ Spec.ruleAt (Spec.asSolved D) (lagVal lay st) e (Spec.declared lay X) 0 →
      D.xbar ≤ Spec.ruleAt (Spec.asSolved D) (lagVal lay st) e (Spec.declared lay X) 1)

section
variable (h : Succeeded lay orc lMax kMax sched mod) (hlag : Spec.LagsNotExpected D) (hself : D.rb D.cvar ≠ 1)
include h hlag hself

/-- An expected path is an equilibrium exactly if the rule is on the right side of the bound in every period. -/
theorem equilibrium_iff_sides {l k : Nat} (hl : l ≤ lMax) (hk : k ≤ kMax) {st : p ⊕ z → K} {eps : ε → K} {X : Nat → p ⊕ z → K}
    (hX : ExpectedPath mod l k st eps X) : Spec.RuleEquilibrium (Spec.asSolved D) (lagVal lay st) eps (Spec.declared lay X) ↔
      ∀ s, Spec.RightSide D.xbar (Spec.ruleAt (Spec.asSolved D) (lagVal lay st) eps (Spec.declared lay X) s) l k s := by
  constructor
  · intro hE s
    obtain ⟨e1, e2⟩ := equilibrium_spell h hlag hself hl hk hX hE
    unfold Spec.RightSide
    split_ifs with hb
    · exact (e2 s hb).2
    · by_contra hn
      exact hb (e1 s (not_le.1 hn))
  · intro hs
    have hp := C148_paths_solve h hlag hself hl hk st eps X hX
    refine ⟨hp.eqs, fun s => ?_⟩
    have := hs s
    unfold Spec.RightSide at this
    split_ifs at this with hb
    · have h3 : Spec.declared lay X s D.cvar = D.xbar := hp.binding s hb
      exact h3.trans (max_eq_left this).symm
    · exact (rule_outside h hlag hself hl hk hX hb).trans (max_eq_right this).symm

/-- In the periods that are tested, the rule is on the right side. -/
theorem tested_side (hk1 : 1 ≤ kMax) {st : p ⊕ z → K} {eps : ε → K} {r : Step z p K} (hr : tFunc mod st eps .none false = .ok r) (hf : r.flag = 0)
    {X : Nat → p ⊕ z → K} (hX : ExpectedPath mod r.l r.k st eps X) {s : Nat} (hs : ¬ Spec.Untested (lMax + 1) r.l r.k s) :
    Spec.RightSide D.xbar (Spec.ruleAt (Spec.asSolved D) (lagVal lay st) eps (Spec.declared lay X) s) r.l r.k s := by
  obtain ⟨h0, hp⟩ := reported_passes h hk1 hlag hself hr hf hX
  unfold Spec.Untested at hs
  unfold Spec.RightSide
  unfold Spec.PassesTests at hp
  rcases hp with ⟨e0, hp⟩ | ⟨c1, c2, c3, c4, c5, c6⟩
  · rw [if_neg (by unfold BindsAt; omega)]
    exact (hp s (by omega)).le
  · rw [not_or] at hs
    have hs2 := hs.2
    by_cases hb : BindsAt r.l r.k s
    · rw [if_pos hb]
      unfold BindsAt at hb
      rcases Nat.eq_or_lt_of_le hb.1 with e | e
      · rw [← e]; exact c4
      · have : s = r.l + r.k - 1 := by omega
        rw [this]
        exact c5 (by omega)
    · rw [if_neg hb]
      unfold BindsAt at hb
      rcases Nat.lt_or_ge s r.l with e | e
      · rcases Nat.eq_zero_or_pos s with e0 | e0
        · rw [e0]; exact c2 (by omega)
        · have : s = r.l - 1 := by omega
          rw [this]
          exact c3 (by omega)
      · have : s = r.l + r.k := by omega
        rw [this]
        exact c6

/-- **C193** (exact condition): what is reported without an error is an equilibrium, with the constraint satisfied in all periods of the expected path, if and only if the rule is
on the right side of the bound in the periods that are not tested. -/
theorem C193_exact (hk1 : 1 ≤ kMax) {st : p ⊕ z → K} {eps : ε → K} {r : Step z p K} (hr : tFunc mod st eps .none false = .ok r) (hf : r.flag = 0)
    {X : Nat → p ⊕ z → K} (hX : ExpectedPath mod r.l r.k st eps X) :
    Spec.RuleEquilibrium (Spec.asSolved D) (lagVal lay st) eps (Spec.declared lay X) ↔
      ∀ s, Spec.Untested (lMax + 1) r.l r.k s →
        Spec.RightSide D.xbar (Spec.ruleAt (Spec.asSolved D) (lagVal lay st) eps (Spec.declared lay X) s) r.l r.k s := by
  obtain ⟨hl, hk⟩ := found_inside h hk1 hr
  rw [equilibrium_iff_sides h hlag hself hl hk hX]
  refine ⟨fun g s _ => g s, fun g s => ?_⟩
  by_cases hs : Spec.Untested (lMax + 1) r.l r.k s
  · exact g s hs
  · exact tested_side h hlag hself hk1 hr hf hX hs

/-- After the spell, and without a spell, it is enough that the rule stays above the bound on linear paths. -/
theorem after_side (hl1 : 1 ≤ lMax) (hk1 : 1 ≤ kMax) (hA : Spec.LinearStaysAbove lay mod) {st : p ⊕ z → K} {eps : ε → K} {r : Step z p K}
    (hr : tFunc mod st eps .none false = .ok r) (hf : r.flag = 0) {X : Nat → p ⊕ z → K} (hX : ExpectedPath mod r.l r.k st eps X) {s : Nat}
    (hs : r.l + r.k ≤ s) : D.xbar ≤ Spec.ruleAt (Spec.asSolved D) (lagVal lay st) eps (Spec.declared lay X) s := by
  obtain ⟨hl, hk⟩ := found_inside h hk1 hr
  obtain ⟨h0, hp⟩ := reported_passes h hk1 hlag hself hr hf hX
  have key : ∀ n, (r.k = 0 ∨ r.l + r.k ≤ n + 1) → D.xbar ≤ Spec.ruleAt (Spec.asSolved D) (lagVal lay st) eps (Spec.declared lay X) (n + 1) →
      ∀ m, D.xbar ≤ Spec.ruleAt (Spec.asSolved D) (lagVal lay st) eps (Spec.declared lay X) (n + 1 + m) := by
    intro n hn hb m
    have e : elapsed r.l r.k (n + 1) = (0, 0) := by
      have := h0
      unfold elapsed
      split_ifs with g <;> refine Prod.ext ?_ ?_ <;> simp only <;> omega
    have hX' := C15_restart hX n
    rw [e] at hX'
    have := hA (X n) _ hX' (by rw [ruleAt_later h hlag hl hk hX n 0]; exact hb) m
    rwa [ruleAt_later h hlag hl hk hX n m] at this
  unfold Spec.PassesTests at hp
  rcases hp with ⟨e0, hp⟩ | ⟨c1, c2, c3, c4, c5, c6⟩
  · rcases Nat.eq_zero_or_pos s with e | e
    · rw [e]
      exact (hp 0 (by omega)).le
    · have := key 0 (.inl e0) (hp 1 (by omega)).le (s - 1)
      rwa [show 0 + 1 + (s - 1) = s by omega] at this
  · have e1 : r.l + r.k - 1 + 1 = r.l + r.k := by omega
    have := key (r.l + r.k - 1) (.inr (by omega)) (by rw [e1]; exact c6) (s - (r.l + r.k))
    rwa [show r.l + r.k - 1 + 1 + (s - (r.l + r.k)) = s by omega] at this

/-- **C193 (partial).** If the rule stays above the bound on linear paths without shocks once it is there, a spell of at most two periods that begins after at most two periods and
is reported without an error is an equilibrium: all its periods are tested.

Missing: longer spells, and models in which the rule returns below the bound (`C193_refuted`). -/
theorem C193_short_partial (hl1 : 1 ≤ lMax) (hk1 : 1 ≤ kMax) (hA : Spec.LinearStaysAbove lay mod) {st : p ⊕ z → K} {eps : ε → K} {r : Step z p K}
    (hr : tFunc mod st eps .none false = .ok r) (hf : r.flag = 0) (hl2 : r.l ≤ 2) (hk2 : r.k ≤ 2) {X : Nat → p ⊕ z → K} (hX : ExpectedPath mod r.l r.k st eps X) :
    Spec.RuleEquilibrium (Spec.asSolved D) (lagVal lay st) eps (Spec.declared lay X) := by
  rw [C193_exact h hlag hself hk1 hr hf hX]
  intro s hs
  obtain ⟨h0, -⟩ := reported_passes h hk1 hlag hself hr hf hX
  unfold Spec.Untested at hs
  have hs' : r.l + r.k ≤ s := by omega
  unfold Spec.RightSide
  rw [if_neg (by unfold BindsAt; omega)]
  exact after_side h hlag hself hl1 hk1 hA hr hf hX hs'

/-- **C193** for small tables: with `l_max` and `k_max` of at most two, everything that is reported without an error is an equilibrium, if the rule stays above the bound on linear
paths. -/
theorem C193_small_tables (hl1 : 1 ≤ lMax) (hk1 : 1 ≤ kMax) (hl2 : lMax ≤ 2) (hk2 : kMax ≤ 2) (hA : Spec.LinearStaysAbove lay mod) :
    Spec.FlagMeansEquilibrium lay mod := by
  intro st e r hr hf
  obtain ⟨hl, hk⟩ := found_inside h hk1 hr
  obtain ⟨c, hm⟩ := genSys_ok h.perm h.gen
  have hz := h.states
  have hnl := noLagFwd_of_not_expected (Z0 := Z0) (Z1 := Z1) hlag
  have hX := (expectedPath_iff hm h.orc h.noTiny h.square h.states hnl hl hk st e (xPath c r.l r.k (q0Of st e))).2 fun _ => rfl
  exact ⟨_, hX, C193_short_partial h hlag hself hl1 hk1 hA hr hf (by omega) (by omega) hX⟩

/-- **C193** for tables of every size: if the rule does not fall below the bound again once it is above, everything that is reported without an error is an equilibrium. -/
theorem C193_stays_above (hk1 : 1 ≤ kMax) (hA : Spec.StaysAbove lay mod lMax kMax) : Spec.FlagMeansEquilibrium lay mod := by
  intro st e r hr hf
  obtain ⟨hl, hk⟩ := found_inside h hk1 hr
  obtain ⟨c, hm⟩ := genSys_ok h.perm h.gen
  have hz := h.states
  have hnl := noLagFwd_of_not_expected (Z0 := Z0) (Z1 := Z1) hlag
  have hX := (expectedPath_iff hm h.orc h.noTiny h.square h.states hnl hl hk st e (xPath c r.l r.k (q0Of st e))).2 fun _ => rfl
  refine ⟨_, hX, ?_⟩
  rw [C193_exact h hlag hself hk1 hr hf hX]
  generalize xPath c r.l r.k (q0Of st e) = X at hX
  intro s hs
  have hstep := hA r.l r.k st e X hl hk hX
  have hup : ∀ a n, D.xbar < Spec.ruleAt (Spec.asSolved D) (lagVal lay st) e (Spec.declared lay X) a →
      D.xbar < Spec.ruleAt (Spec.asSolved D) (lagVal lay st) e (Spec.declared lay X) (a + n) := by
    intro a n ha
    induction n with
    | zero => exact ha
    | succ n ih => exact (hstep (a + n)).1 ih
  have hout : ∀ a n, (∀ m < n, ¬ BindsAt r.l r.k (a + m)) → D.xbar ≤ Spec.ruleAt (Spec.asSolved D) (lagVal lay st) e (Spec.declared lay X) a →
      D.xbar ≤ Spec.ruleAt (Spec.asSolved D) (lagVal lay st) e (Spec.declared lay X) (a + n) := by
    intro a n hb ha
    induction n with
    | zero => exact ha
    | succ n ih => exact (hstep (a + n)).2 (hb n (by omega)) (ih fun m hm => hb m (by omega))
  obtain ⟨h0, hp⟩ := reported_passes h hk1 hlag hself hr hf hX
  unfold Spec.PassesTests at hp
  unfold Spec.Untested at hs
  unfold Spec.RightSide
  rcases hp with ⟨e0, hp⟩ | ⟨c1, c2, c3, c4, c5, c6⟩
  · rw [if_neg (by unfold BindsAt; omega)]
    have := hup 0 s (hp 0 (by omega))
    rw [Nat.zero_add] at this
    exact this.le
  · split_ifs with hb
    · unfold BindsAt at hb
      by_contra hn
      have := hup s (r.l + r.k - 1 - s) (not_le.1 hn)
      rw [show s + (r.l + r.k - 1 - s) = r.l + r.k - 1 by omega] at this
      exact absurd (c5 (by omega)) (not_le.2 this)
    · rcases Nat.lt_or_ge s r.l with e | e
      · have := hout 0 s (fun m hm => by unfold BindsAt; omega) (c2 (by omega))
        rwa [Nat.zero_add] at this
      · unfold BindsAt at hb
        have := hout (r.l + r.k) (s - (r.l + r.k)) (fun m hm => by unfold BindsAt; omega) c6
        rwa [show r.l + r.k + (s - (r.l + r.k)) = s by omega] at this

omit hself in
/-- **C193**: whether the rule falls below the bound again need only be checked between the first two periods of each spell of the tables; the later periods of a spell are the first
periods of the spell that is left. -/
theorem C193_first_step : Spec.StaysAbove lay mod lMax kMax ↔ Spec.FirstStepAbove lay mod lMax kMax := by
  refine ⟨fun g l k st e X hl hk hX => g l k st e X hl hk hX 0, fun g l k st e X hl hk hX s => ?_⟩
  rcases s with _ | n
  · exact g l k st e X hl hk hX
  · have b1 : (elapsed l k (n + 1)).1 ≤ lMax := by unfold elapsed; split_ifs <;> simp only <;> omega
    have b2 : (elapsed l k (n + 1)).2 ≤ kMax := by unfold elapsed; split_ifs <;> simp only <;> omega
    have b3 : BindsAt (elapsed l k (n + 1)).1 (elapsed l k (n + 1)).2 0 ↔ BindsAt l k (n + 1) := by
      unfold BindsAt elapsed; split_ifs <;> simp only <;> omega
    have := g _ _ (X n) 0 _ b1 b2 (C15_restart hX n)
    rwa [ruleAt_later h hlag hl hk hX n 0, ruleAt_later h hlag hl hk hX n 1, b3] at this

/-- **C193**: if in the first two periods of no spell the rule falls from above the bound to below it, everything that is reported without an error is an equilibrium. -/
theorem C193_checked (hk1 : 1 ≤ kMax) (hA : Spec.FirstStepAbove lay mod lMax kMax) : Spec.FlagMeansEquilibrium lay mod :=
  C193_stays_above h hlag hself hk1 ((C193_first_step h hlag).2 hA)

end
end Yaml

/-! ## Examples -/

/-- **C193 (refuted).** In an oscillating model, for tables of every size: after the shock `19/2` a spell is reported without an error, and on the path that it expects the
constrained variable violates the bound in a period that is not tested. -/
theorem C193_refuted {lMax kMax : Nat} {sched : Nat → List Nat} {mod : Model (Fin 1) (Fin 1) (Fin 1) (Fin 1) Rat}
    (h : Succeeded Ex5.lay Ex5.orc lMax kMax sched mod) (hl : 1 ≤ lMax) (hk : 1 ≤ kMax) (hL : lMax + 1 ≤ 999) :
    ∃ r X s, tFunc mod 0 (fun _ => 19/2) .none false = .ok r ∧ r.flag = 0 ∧ ExpectedPath mod r.l r.k 0 (fun _ => 19/2) X ∧
      Spec.declared Ex5.lay X s Ex5.decl.cvar < Ex5.decl.xbar ∧
      ¬ Spec.RuleEquilibrium (Spec.asSolved Ex5.decl) (lagVal Ex5.lay (0 : Fin 1 ⊕ Fin 1 → Rat)) (fun _ => 19/2) (Spec.declared Ex5.lay X) := by
  obtain ⟨c, hm⟩ := genSys_ok h.perm h.gen
  have hX : ExpectedPath mod 1 1 0 (fun _ => 19/2) (xPath c 1 1 (q0Of 0 fun _ => 19/2)) :=
    (expectedPath_iff hm h.orc h.noTiny h.square h.states (noLagFwd_of_rc rfl) hl hk 0 _ _).2 fun _ => rfl
  generalize xPath c 1 1 (q0Of 0 fun _ => 19/2) = X at hX
  obtain ⟨h1, h2⟩ := Ex5.osc_found h hl hk hL hX
  have h3 : Spec.declared Ex5.lay X 3 Ex5.decl.cvar < Ex5.decl.xbar := by
    have e1 : Spec.declared Ex5.lay X 3 Ex5.decl.cvar = X 3 (.inl 0) := Ex5.val_r _
    have e2 : Ex5.decl.xbar = -1 := rfl
    rw [e1, e2, h2]
    norm_num
  refine ⟨_, X, 3, h1, rfl, hX, h3, fun hE => ?_⟩
  have := hE.con 3
  have h4 : Spec.declared Ex5.lay X 3 Ex5.decl.cvar = max Ex5.decl.xbar _ := this
  exact absurd (le_max_left Ex5.decl.xbar _) (not_le.2 (h4 ▸ h3))

/-- **C193**, hypotheses: in the model Ex17 the rule never falls below the bound again, on expected paths with every spell, and on linear paths. -/
theorem C193_hypotheses_met (lMax kMax : Nat) (hk : 2 ≤ kMax) (hL : lMax + 1 ≤ 999) : ∃ mod, Succeeded Ex17.lay Ex17.orc lMax kMax (serial kMax) mod ∧
    Spec.LagsNotExpected Ex17.decl ∧ Ex17.decl.rb Ex17.decl.cvar ≠ 1 ∧ Spec.StaysAbove Ex17.lay mod lMax kMax ∧ Spec.LinearStaysAbove Ex17.lay mod ∧
    ∃ r, tFunc mod 0 (fun _ => -5) .none false = .ok r ∧ r.flag = 0 ∧ r.l = 0 ∧ r.k = 2 := by
  obtain ⟨mod, h⟩ := Ex17.succeeds (b := -1) lMax kMax (fun _ _ => List.Perm.refl _)
  obtain ⟨r3, c1, c2, c3, c4, -⟩ := Ex17.run h (k := 2) (by omega) hk hL (st := 0) (eps := fun _ => -5) (by norm_num) (by norm_num)
  have hA : Spec.StaysAbove (Ex17.layB (-1)) mod lMax kMax := by
    intro l k st e X hl hk hX s
    have hx : (Ex17.declB (-1)).xbar = -1 := rfl
    rw [Ex17.rule_eq, Ex17.rule_eq, hx]
    have a1 := Ex17.rule_le_iff h hl hk hX s
    have a2 := Ex17.rule_le_iff h hl hk hX (s + 1)
    constructor
    · intro g
      rw [← not_le, a2.1, not_le]
      refine Ex17.base_above h hl hk hX ?_ 1
      rw [← not_le, ← a1.1, not_le]
      exact g
    · intro hb g
      rw [← not_lt, a2.2, not_lt]
      have : 8/3 * (-1 : Rat) ≤ Ex17.base (-1) st e (Spec.declared (Ex17.layB (-1)) X) s := by
        rw [← not_lt, ← a1.2, not_lt]
        exact g
      exact (Ex17.base_above' h hl hk hX this hb 0).le
  refine ⟨mod, h, Ex17.lagsNotExpected, Ex17.self_ne, hA, ?_, r3, c1, c2, c3, c4⟩
  intro st Y hY h0 s
  induction s with
  | zero => exact h0
  | succ s ih => exact (hA 0 0 st 0 Y (Nat.zero_le _) (Nat.zero_le _) hY s).2 (by unfold BindsAt; omega) ih

end Pydsge
