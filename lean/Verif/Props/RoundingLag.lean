import Verif.Props.Rounding
import Verif.Props.FoundLag

/-!
# C172, for constraints with lags
-/

set_option autoImplicit false
set_option linter.unusedSectionVars false
set_option linter.unusedSimpArgs false

namespace Pydsge

open Matrix Pydsge.Engine Pydsge.Spec Pydsge.Tools Pydsge.GenSys

variable {E ν ε o K : Type} [Fintype E] [Fintype ν] [Fintype ε] [Fintype o]
  [DecidableEq E] [DecidableEq ν] [DecidableEq ε] [Field K] [LinearOrder K] [IsStrictOrderedRing K]
variable {H z p : Type} [DecidableEq H] [Fintype H] [Fintype z] [Fintype p] [DecidableEq z] [DecidableEq p]

section Yaml
variable {D : Declared E ν ε K} {Z0 : Matrix o ν K} {Z1 : o → K} {tol : K} [DecidablePred (inall tol (yaml D Z0 Z1))]
  {lay : Layout tol (yaml D Z0 Z1) H z p}
  {orc : Oracle (Rows E H ε) (z ⊕ ε) p K} {lMax kMax : Nat} {sched : Nat → List Nat} {mod : Model z ε p o K}
  {t' : Tables (z ⊕ ε) p K} {d : K}

/-- **C172**, for constraints with lags, shocks and the constrained variable itself: if no error is reported, the constrained variable differs
from the maximum of the bound and the value that satisfies the constraint equation of the solved model by at most a multiple of the error in the
tables. -/
theorem C172_close_to_max_general (h : Succeeded lay orc lMax kMax sched mod) (hk1 : 1 ≤ kMax) (hlag : Spec.LagsNotExpected D)
    (hself : D.rb D.cvar ≠ 1) (hc : Spec.CloseTables mod.tables t' d) (st : p ⊕ z → K) (eps : ε → K) (r' : Step z p K)
    (hr' : tFunc { mod with tables := t' } st eps .none false = .ok r') (hflag : r'.flag = 0) :
    |lay.val r'.state (.inl D.cvar) - max D.xbar (Spec.ruleValue (Spec.asSolved D) (lagVal lay st) eps (fun v => lay.val r'.state (.inl v)))| ≤
      (2 + size1 D.rb / |1 - D.rb D.cvar|) * (d * (1 + size1 (q0Of st eps))) := by
  obtain ⟨c, hm⟩ := genSys_ok h.perm h.gen
  obtain ⟨v', r'', hr, hv, -, h1, hl, hk, hcase, hs⟩ := step_close h hk1 hc hm st eps
  rw [h1] at hr'
  cases hr'
  have hfb := fb0_cvar_ne (Z0 := Z0) (Z1 := Z1) hself
  have hval := fun v => val_close (lay := lay) h.square hs (.inl v)
  generalize hη : d * (1 + size1 (q0Of st eps)) = η at *
  have hslack := con_slack hm h.orc hfb hl hk (q0Of st eps) 0
  have hbind := con_bind (l := r'.l) hm h.orc hk (q0Of st eps) 0
  have hpv := pathValue_solved (c := c) (l := r'.l) (k := r'.k) h hlag hself st eps
  have hx : declPath lay c r'.l r'.k (q0Of st eps) 0 (yaml D Z0 Z1).cvar =
    lay.val (xPath c r'.l r'.k (q0Of st eps) 0) (.inl D.cvar) := rfl
  rw [hx] at hslack hbind
  have hpos : 0 ≤ η := (abs_nonneg _).trans (hval D.cvar)
  -- the notional values
  have hdne : (1 - D.rb D.cvar) ≠ 0 := sub_ne_zero.2 (Ne.symm hself)
  have hn : |Spec.ruleValue (Spec.asSolved D) (lagVal lay st) eps (fun v => lay.val r'.state (.inl v)) -
      pathValue (ff lay) c (q0Of st eps) r'.l r'.k 0| ≤ size1 D.rb / |1 - D.rb D.cvar| * η := by
    rw [hpv]
    have e : Spec.ruleValue (Spec.asSolved D) (lagVal lay st) eps (fun v => lay.val r'.state (.inl v)) -
        Spec.ruleValue (Spec.asSolved D) (lagVal lay st) eps (fun v => lay.val (xPath c r'.l r'.k (q0Of st eps) 0) (.inl v)) =
        (∑ v, if v = D.cvar then 0 else D.rb v * (lay.val r'.state (.inl v) - lay.val (xPath c r'.l r'.k (q0Of st eps) 0) (.inl v))) /
          (1 - D.rb D.cvar) := by
      have e1 : ∀ v, (if v = D.cvar then 0 else D.rb v * (lay.val r'.state (.inl v) - lay.val (xPath c r'.l r'.k (q0Of st eps) 0) (.inl v))) =
          (if v = D.cvar then 0 else D.rb v * lay.val r'.state (.inl v)) -
            (if v = D.cvar then 0 else D.rb v * lay.val (xPath c r'.l r'.k (q0Of st eps) 0) (.inl v)) := by
        intro v
        split_ifs
        · rw [sub_zero]
        · rw [mul_sub]
      simp only [Spec.ruleValue, Spec.asSolved, e1, Finset.sum_sub_distrib]
      rw [← sub_div, add_sub_add_right_eq_sub, add_sub_add_right_eq_sub]
      rfl
    rw [e, abs_div, div_mul_eq_mul_div]
    refine div_le_div_of_nonneg_right ((Finset.abs_sum_le_sum_abs _ _).trans ?_) (abs_nonneg _)
    unfold size1
    rw [Finset.sum_mul]
    refine Finset.sum_le_sum fun v _ => ?_
    split_ifs
    · rw [abs_zero]
      exact mul_nonneg (abs_nonneg _) hpos
    · rw [abs_mul]
      exact mul_le_mul_of_nonneg_left (hval v) (abs_nonneg _)
  -- the exact path under the spell
  have hex : |lay.val (xPath c r'.l r'.k (q0Of st eps) 0) (.inl D.cvar) -
      max D.xbar (pathValue (ff lay) c (q0Of st eps) r'.l r'.k 0)| ≤ η := by
    have hxb : (yaml D Z0 Z1).xbar = D.xbar := rfl
    rcases hcase with ⟨a1, a2, -, a3⟩ | ⟨a1, a2⟩ | ⟨a1, a2, a3⟩
    · rw [hslack (by unfold BindsAt; omega)]
      have b2 := a3 0 (by omega)
      have b3 := abs_le.1 (hv 2 0 0 (by omega) (by omega) (by simp) (by simp))
      simp only [slotPeriod] at b3
      rw [a1, a2]
      rcases max_cases D.xbar (pathValue (ff lay) c (q0Of st eps) 0 0 0) with ⟨e, _⟩ | ⟨e, _⟩
      · rw [e, abs_le]; constructor <;> linarith [b3.2]
      · rw [e, sub_self, abs_zero]; exact hpos
    · by_cases hl0 : r'.l = 0
      · rw [hbind (by unfold BindsAt; have := a2.binds; omega)]
        have b2 := a2.first
        have b3 := abs_le.1 (hv 2 r'.l r'.k (by omega) (by omega) (by simp) (by simp))
        simp only [slotPeriod] at b3
        rw [hl0] at b2 b3 ⊢
        rcases max_cases D.xbar (pathValue (ff lay) c (q0Of st eps) 0 r'.k 0) with ⟨e, _⟩ | ⟨e, _⟩
        · rw [e, hxb, sub_self, abs_zero]; exact hpos
        · rw [e, abs_le]; constructor <;> linarith [b3.1]
      · rw [hslack (by unfold BindsAt; omega)]
        have b2 := a2.start (by omega)
        have b3 := abs_le.1 (hv 0 r'.l r'.k (by omega) (by omega) (by simp) (by simp))
        simp only [slotPeriod] at b3
        rcases max_cases D.xbar (pathValue (ff lay) c (q0Of st eps) r'.l r'.k 0) with ⟨e, _⟩ | ⟨e, _⟩
        · rw [e, abs_le]; constructor <;> linarith [b3.2]
        · rw [e, sub_self, abs_zero]; exact hpos
    · exact absurd hflag a3
  have hmax := (abs_max_sub_max_le_abs (Spec.ruleValue (Spec.asSolved D) (lagVal lay st) eps (fun v => lay.val r'.state (.inl v)))
    (pathValue (ff lay) c (q0Of st eps) r'.l r'.k 0) D.xbar).trans hn
  rw [max_comm _ D.xbar, max_comm _ D.xbar] at hmax
  have q1 := abs_le.1 (hval D.cvar)
  have q2 := abs_le.1 hex
  have q3 := abs_le.1 hmax
  rw [abs_le]
  constructor <;> linarith [q1.1, q1.2, q2.1, q2.2, q3.1, q3.2]

end Yaml

end Pydsge
