import Verif.Props.AsAnnounced
import Verif.Props.GlobalLipEx

/-!
# C153, C177: continuity from a condition on the model

The conditions of C153 and C177 at single states follow from two conditions on the model: announced disturbances do not reverse (C173), and the rule does not fall below the bound
again once it is above (C193).
-/

set_option autoImplicit false
set_option linter.unusedSectionVars false
set_option linter.unusedSimpArgs false

namespace Pydsge

open Matrix Pydsge.Engine Pydsge.Spec Pydsge.Tools Pydsge.GenSys

variable {E ν ε o K : Type} [Fintype E] [Fintype ν] [Fintype ε] [Fintype o]
  [DecidableEq E] [DecidableEq ν] [DecidableEq ε] [Field K] [LinearOrder K] [IsStrictOrderedRing K]
variable {H z p : Type} [DecidableEq H] [Fintype H] [Fintype z] [Fintype p] [DecidableEq z] [DecidableEq p]
section Yaml
variable {D : Declared E ν ε K} {Z0 : Matrix o ν K} {Z1 : o → K} {tol : K} [DecidablePred (inall tol (yaml D Z0 Z1))]
  {lay : Layout tol (yaml D Z0 Z1) H z p} {orc : Oracle (Rows E H ε) (z ⊕ ε) p K} {lMax kMax : Nat}
  {sched : Nat → List Nat} {mod : Model z ε p o K}
  (h : Succeeded lay orc lMax kMax sched mod) (hlag : Spec.LagsNotExpected D) (hself : D.rb D.cvar ≠ 1) (hA : Spec.StaysAbove lay mod lMax kMax)
include h hlag hself hA

/-- Every spell that passes the tests, also with equality, is an equilibrium. -/
theorem passes_is_equilibrium {st : p ⊕ z → K} {e : ε → K} {l k : Nat} (hl : l ≤ lMax) (hk : k ≤ kMax) (hp : Spec.Passes mod lMax kMax st e l k)
    {X : Nat → p ⊕ z → K} (hX : ExpectedPath mod l k st e X) : Spec.RuleEquilibrium (Spec.asSolved D) (lagVal lay st) e (Spec.declared lay X) := by
  obtain ⟨c, hm⟩ := genSys_ok h.perm h.gen
  have hz := h.states
  have hnl := noLagFwd_of_not_expected (Z0 := Z0) (Z1 := Z1) hlag
  have hXs : X = xPath c l k (q0Of st e) := funext ((expectedPath_iff hm h.orc h.noTiny h.square h.states hnl hl hk st e X).1 hX)
  have hv : ∀ s, pathValue (ff lay) c (q0Of st e) l k s = Spec.ruleAt (Spec.asSolved D) (lagVal lay st) e (Spec.declared lay X) s :=
    fun s => by rw [hXs]; exact pathValue_rule h hm hlag hself hl hk st e s
  rw [equilibrium_iff_sides h hlag hself hl hk hX]
  have hstep := hA l k st e X hl hk hX
  have hup : ∀ a n, D.xbar < Spec.ruleAt (Spec.asSolved D) (lagVal lay st) e (Spec.declared lay X) a →
      D.xbar < Spec.ruleAt (Spec.asSolved D) (lagVal lay st) e (Spec.declared lay X) (a + n) := by
    intro a n ha
    induction n with
    | zero => exact ha
    | succ n ih => exact (hstep (a + n)).1 ih
  have hout : ∀ a n, (∀ m < n, ¬ BindsAt l k (a + m)) → D.xbar ≤ Spec.ruleAt (Spec.asSolved D) (lagVal lay st) e (Spec.declared lay X) a →
      D.xbar ≤ Spec.ruleAt (Spec.asSolved D) (lagVal lay st) e (Spec.declared lay X) (a + n) := by
    intro a n hb ha
    induction n with
    | zero => exact ha
    | succ n ih => exact (hstep (a + n)).2 (hb n (by omega)) (ih fun m hm => hb m (by omega))
  rw [passes_iff hm st e hl hk] at hp
  have hxb : (yaml D Z0 Z1).xbar = D.xbar := rfl
  intro s
  unfold Spec.RightSide
  rcases hp with ⟨rfl, rfl, hp⟩ | ⟨c1, c2, c3, c4, c5, c6⟩
  · rw [if_neg (by unfold BindsAt; omega)]
    have h0 := hp 0 (by omega)
    simp only [slotPeriod] at h0
    rw [hv, hxb] at h0
    have := hout 0 s (fun m hm => by unfold BindsAt; omega) h0
    rwa [Nat.zero_add] at this
  · simp only [slotPeriod, hv, hxb] at c2 c3 c4 c5 c6
    by_cases hb : BindsAt l k s
    · rw [if_pos hb]
      unfold BindsAt at hb
      by_contra hn
      have := hup s (l + k - 1 - s) (not_le.1 hn)
      rw [show s + (l + k - 1 - s) = l + k - 1 by omega] at this
      rcases Nat.lt_or_ge 1 k with e1 | e1
      · exact absurd (c6 (by omega)) (not_le.2 this)
      · have e2 : l + k - 1 = l := by omega
        rw [e2] at this
        exact absurd c5 (not_le.2 this)
    · rw [if_neg hb]
      rcases Nat.lt_or_ge s l with e1 | e1
      · have := hout 0 s (fun m hm => by unfold BindsAt; omega) (c2 (by omega))
        rwa [Nat.zero_add] at this
      · unfold BindsAt at hb
        have := hout (l + k) (s - (l + k)) (fun m hm => by unfold BindsAt; omega) c4
        rwa [show l + k + (s - (l + k)) = s by omega] at this

/-- **C177**: the two conditions on the model make all spells that pass agree, at every state and shock. -/
theorem C177_always_determined (hP : Spec.NoReversalOf lay mod) (st : p ⊕ z → K) (e : ε → K) : Spec.Determined mod lMax kMax st e :=
  C177_unique_determined h hlag hself hP fun _ _ _ hl hk hp hX => passes_is_equilibrium h hlag hself hA hl hk hp hX

/-- **C153** from conditions on the model: there is a constant such that around every state and shock without an error, the transition changes by at most this constant times the
change of states and shocks, as long as no error is reported. -/
theorem C153_from_model (hP : Spec.NoReversalOf lay mod) (hk1 : 1 ≤ kMax) :
    ∃ M : K, 0 ≤ M ∧ ∀ (st : p ⊕ z → K) (e : ε → K) (r : Step z p K), tFunc mod st e .none false = .ok r → r.flag = 0 →
      ∃ δ > 0, ∀ (st' : p ⊕ z → K) (e' : ε → K) (r' : Step z p K),
        Spec.Near δ (fun i : z => st (.inr i)) (fun i => st' (.inr i)) → Spec.Near δ e e' →
        tFunc mod st' e' .none false = .ok r' → r'.flag = 0 → ∀ d, Spec.Near d (fun i : z => st (.inr i)) (fun i => st' (.inr i)) →
        Spec.Near d e e' → Spec.Near (M * d) r.state r'.state := by
  obtain ⟨M, h0, hM⟩ := C153_locally_lipschitz_partial h (by omega)
  exact ⟨M, h0, fun st e r hr hf => hM st e r hr hf (C177_always_determined h hlag hself hA hP st e)⟩

/-- **C153**, simulations, from conditions on the model: near a simulation without an error, nearby initial states and shocks give nearby simulations, if these have no error. -/
theorem C153_simulations_from_model (hP : Spec.NoReversalOf lay mod) (hk1 : 1 ≤ kMax) (es : List (ε → K)) (st : p ⊕ z → K) (res : SimRes z p K)
    (hres : simLoop mod false st es = .ok res) (hf : res.flag = 0) :
    ∀ η > 0, ∃ δ > 0, ∀ (st' : p ⊕ z → K) (es' : List (ε → K)) (res' : SimRes z p K), Spec.Near δ st st' →
      List.Forall₂ (Spec.Near δ) es es' → simLoop mod false st' es' = .ok res' → res'.flag = 0 → List.Forall₂ (Spec.Near η) res.X res'.X :=
  C153_simulations_partial h (by omega) es st res hres hf fun _ s e _ _ => C177_always_determined h hlag hself hA hP s e

/-- **C177** from conditions on the model: there is a constant such that the transitions of two states and shocks, between which no error is reported, differ by at most this constant
times their difference, however large it is. -/
theorem C177_from_model (hP : Spec.NoReversalOf lay mod) (hk1 : 1 ≤ kMax) :
    ∃ M : K, 0 ≤ M ∧ ∀ (st st' : p ⊕ z → K) (e e' : ε → K) (r r' : Step z p K),
      (∀ t : K, 0 ≤ t → t ≤ 1 → ∃ s, tFunc mod ((1 - t) • st + t • st') ((1 - t) • e + t • e') .none false = .ok s ∧ s.flag = 0) →
      tFunc mod st e .none false = .ok r → tFunc mod st' e' .none false = .ok r' →
      ∀ d, Spec.Near d (fun i : z => st (.inr i)) (fun i => st' (.inr i)) → Spec.Near d e e' → Spec.Near (M * d) r.state r'.state := by
  obtain ⟨M, h0, hM⟩ := C177_lipschitz h (by omega)
  exact ⟨M, h0, fun st st' e e' r r' hb => hM st st' e e' r r' fun t h1 h2 => ⟨hb t h1 h2, C177_always_determined h hlag hself hA hP _ _⟩⟩

/-- **C163**: an error is not a matter of a single state: around a state and shock with an error there are only states and shocks with an error. -/
theorem C163_errors_open (hl1 : 1 ≤ lMax) (hk1 : 1 ≤ kMax) (hL : lMax + 1 ≤ 999) {st : p ⊕ z → K} {e : ε → K} {r : Step z p K}
    (hr : tFunc mod st e .none false = .ok r) (hf : r.flag ≠ 0) : ∃ δ > 0, ∀ (st' : p ⊕ z → K) (e' : ε → K) (r' : Step z p K),
      Spec.Near δ (fun i : z => st (.inr i)) (fun i => st' (.inr i)) → Spec.Near δ e e' → tFunc mod st' e' .none false = .ok r' → r'.flag ≠ 0 := by
  obtain ⟨c, hm, hc⟩ := search_cases h (by omega)
  have hz := h.states
  have hno : ∀ l k, l ≤ lMax → k ≤ kMax → ¬ PassAt lay c lMax l k (q0Of st e) := by
    intro l k hl hk hp
    obtain ⟨X, hX⟩ := expectedPath_exists h hl hk st e
    obtain ⟨r', h1, h2⟩ := found_of_equilibrium h hl1 hk1 hL hlag hself hl hk hX
      (passes_is_equilibrium h hlag hself hA hl hk ((passes_iff hm st e hl hk).2 hp) hX)
    rw [hr] at h1
    cases h1
    exact hf h2
  obtain ⟨δ, h1, h2⟩ := failsOpenly_uniform (P := fun n q => PassAt lay c lMax (n / (kMax + 1)) (n % (kMax + 1)) q)
    (fun n => passAt_failsOpenly lay c lMax _ _) (q0Of st e) ((lMax + 1) * (kMax + 1))
  refine ⟨δ, h1, fun st' e' r' n1 n2 hr' hf' => ?_⟩
  obtain ⟨l, k, flag, b1, b2, b3, -, b4⟩ := hc st' e'
  rw [b3] at hr'
  cases hr'
  have p2 := found_passes hf' b4
  have hlt : (kMax + 1) * l + k < (lMax + 1) * (kMax + 1) := by nlinarith
  have hd1 : ((kMax + 1) * l + k) / (kMax + 1) = l := by
    rw [Nat.mul_add_div (by omega), Nat.div_eq_of_lt (by omega), Nat.add_zero]
  have hd2 : ((kMax + 1) * l + k) % (kMax + 1) = k := by
    rw [Nat.mul_add_mod, Nat.mod_eq_of_lt (by omega)]
  have := h2 _ hlt
  simp only [hd1, hd2] at this
  exact this (hno l k b1 b2) _ (near_q0 n1 n2) p2

end Yaml

namespace Ex17

variable {b : Rat} [hneg : Fact (b < 0)] {lMax kMax : Nat} {sched : Nat → List Nat} {mod : Model (Fin 1) (Fin 1) (Fin 1) (Fin 1) Rat}

theorem base_in_spell (h : Succeeded (layB b) orc lMax kMax sched mod) {k : Nat} (hk : k ≤ kMax) {st : Fin 1 ⊕ Fin 1 → Rat} {eps : Fin 1 → Rat}
    {Y : Nat → Fin 1 ⊕ Fin 1 → Rat} (hY : ExpectedPath mod 0 k st eps Y) :
    ∀ j ≤ k, base b st eps (Spec.declared (layB b) Y) j = st (.inr 0) + eps 0 + -4/3 * b * (j : Nat) := by
  intro j hj
  induction j with
  | zero => rw [base_zero]; simp
  | succ j ih =>
    rw [base_succ, path_binds h (Nat.zero_le _) hk hY (by unfold BindsAt; omega), ih (by omega)]
    push_cast
    ring

/-- In this model the states and shocks without an error are a half space, exactly. -/
theorem no_error_iff (h : Succeeded (layB b) orc lMax kMax sched mod) (hl1 : 1 ≤ lMax) (hk1 : 1 ≤ kMax) (hL : lMax + 1 ≤ 999) (st : Fin 1 ⊕ Fin 1 → Rat)
    (eps : Fin 1 → Rat) : (∃ r, tFunc mod st eps .none false = .ok r ∧ r.flag = 0) ↔ 8/3 * b + 4/3 * b * (kMax : Rat) ≤ st (.inr 0) + eps 0 := by
  have hn := hneg.out
  have hx : (declB b).xbar = b := rfl
  have cast : ∀ {m n : Nat}, m ≤ n → (-4/3 * b * (m : Rat)) ≤ -4/3 * b * n := fun {m n} hmn => by
    have : (m : Rat) ≤ n := by exact_mod_cast hmn
    have := mul_le_mul_of_nonneg_left this (show 0 ≤ -4/3 * b by linarith)
    linarith
  constructor
  · rintro ⟨r, hr, hf⟩
    obtain ⟨hl, hk⟩ := found_inside h hk1 hr
    obtain ⟨X, hX, hXe⟩ := flagMeansEquilibrium h hk1 st eps r hr hf
    rw [equilibrium_iff_sides h lagsNotExpected self_ne hl hk hX] at hXe
    by_contra hlt
    rw [not_le] at hlt
    have hk0 : (0 : Rat) ≤ -4/3 * b * (kMax : Rat) := mul_nonneg (by linarith) (Nat.cast_nonneg _)
    have slack : ∀ s, ¬ BindsAt r.l r.k s → 8/3 * b ≤ base b st eps (Spec.declared (layB b) X) s := by
      intro s hs
      have := hXe s
      unfold Spec.RightSide at this
      rw [if_neg hs, rule_eq, hx] at this
      rw [← not_lt, ← (rule_le_iff h hl hk hX s).2, not_lt]
      exact this
    have h0 : BindsAt r.l r.k 0 := by
      by_contra hb
      have := slack 0 hb
      rw [base_zero] at this
      linarith
    have e0 : r.l = 0 := by unfold BindsAt at h0; omega
    rw [e0] at hX slack
    have h1 := slack r.k (by unfold BindsAt; omega)
    rw [base_in_spell h hk hX r.k le_rfl] at h1
    have := cast hk
    linarith
  · intro hu
    have hex : ∃ k : Nat, 8/3 * b ≤ st (.inr 0) + eps 0 + -4/3 * b * (k : Nat) := ⟨kMax, by linarith⟩
    classical
    have hmin := fun j => Nat.find_min hex (m := j)
    have hk : Nat.find hex ≤ kMax := Nat.find_min' hex (by linarith)
    have hs := Nat.find_spec hex
    generalize Nat.find hex = k at hmin hk hs
    obtain ⟨X, hX⟩ := expectedPath_exists h (Nat.zero_le lMax) hk st eps
    refine found_of_equilibrium h hl1 hk1 hL lagsNotExpected self_ne (Nat.zero_le _) hk hX ?_
    rw [equilibrium_iff_sides h lagsNotExpected self_ne (Nat.zero_le _) hk hX]
    intro s
    unfold Spec.RightSide
    rw [rule_eq, hx]
    by_cases hb : BindsAt 0 k s
    · rw [if_pos hb, (rule_le_iff h (Nat.zero_le _) hk hX s).1]
      unfold BindsAt at hb
      rw [base_in_spell h hk hX s (by omega)]
      exact (not_le.1 (hmin s (by omega))).le
    · rw [if_neg hb, ← not_lt, (rule_le_iff h (Nat.zero_le _) hk hX s).2, not_lt]
      have hbk : 8/3 * b ≤ base b st eps (Spec.declared (layB b) X) k := by
        rw [base_in_spell h hk hX k le_rfl]
        exact hs
      unfold BindsAt at hb
      rcases Nat.eq_or_lt_of_le (show k ≤ s by omega) with e | e
      · rw [← e]
        exact hbk
      · have := base_above' h (Nat.zero_le _) hk hX hbk (by unfold BindsAt; omega) (s - k - 1)
        rw [show k + 1 + (s - k - 1) = s by omega] at this
        exact this.le

/-- the rule does not fall below the bound again -/
theorem staysAbove (h : Succeeded (layB b) orc lMax kMax sched mod) : Spec.StaysAbove (layB b) mod lMax kMax := by
  intro l k st e X hl hk hX s
  have hx : (declB b).xbar = b := rfl
  rw [rule_eq, rule_eq, hx]
  have a1 := rule_le_iff h hl hk hX s
  have a2 := rule_le_iff h hl hk hX (s + 1)
  constructor
  · intro g
    rw [← not_le, a2.1, not_le]
    refine base_above h hl hk hX ?_ 1
    rw [← not_le, ← a1.1, not_le]
    exact g
  · intro hb g
    rw [← not_lt, a2.2, not_lt]
    have : 8/3 * b ≤ base b st e (Spec.declared (layB b) X) s := by
      rw [← not_lt, ← a1.2, not_lt]
      exact g
    exact (base_above' h hl hk hX this hb 0).le

end Ex17

/-- **C153, C177**, hypotheses: in the model Ex17, with tables of every size, the transition function is Lipschitz on the set of all states and shocks without an error, which is a half
space; the constraint binds for up to `k_max` periods there. -/
theorem C177_from_model_hypotheses_met (lMax kMax : Nat) (hl : 1 ≤ lMax) (hk : 1 ≤ kMax) (hL : lMax + 1 ≤ 999) : ∃ mod,
    Succeeded Ex17.lay Ex17.orc lMax kMax (serial kMax) mod ∧ Spec.LagsNotExpected Ex17.decl ∧ Ex17.decl.rb Ex17.decl.cvar ≠ 1 ∧
    Spec.NoReversalOf Ex17.lay mod ∧ Spec.StaysAbove Ex17.lay mod lMax kMax ∧
    (∀ st eps, (∃ r, tFunc mod st eps .none false = .ok r ∧ r.flag = 0) ↔ -8/3 - 4/3 * (kMax : Rat) ≤ st (.inr 0) + eps 0) ∧
    ∃ M : Rat, 0 ≤ M ∧ ∀ (st st' : Fin 1 ⊕ Fin 1 → Rat) (e e' : Fin 1 → Rat) (r r' : Step (Fin 1) (Fin 1) Rat),
      tFunc mod st e .none false = .ok r → r.flag = 0 → tFunc mod st' e' .none false = .ok r' → r'.flag = 0 →
      ∀ d, Spec.Near d (fun i : Fin 1 => st (.inr i)) (fun i => st' (.inr i)) → Spec.Near d e e' → Spec.Near (M * d) r.state r'.state := by
  obtain ⟨mod, h⟩ := Ex17.succeeds (b := -1) lMax kMax (fun _ _ => List.Perm.refl _)
  have hno : ∀ st eps, (∃ r, tFunc mod st eps .none false = .ok r ∧ r.flag = 0) ↔ -8/3 - 4/3 * (kMax : Rat) ≤ st (.inr 0) + eps 0 := by
    intro st eps
    rw [Ex17.no_error_iff h hl hk hL st eps, show 8/3 * (-1) + 4/3 * (-1) * (kMax : Rat) = -8/3 - 4/3 * (kMax : Rat) by ring]
  refine ⟨mod, h, Ex17.lagsNotExpected, Ex17.self_ne, Ex17.noReversalOf, Ex17.staysAbove h, hno, ?_⟩
  obtain ⟨M, h0, hM⟩ := C177_from_model h Ex17.lagsNotExpected Ex17.self_ne (Ex17.staysAbove h) Ex17.noReversalOf hk
  refine ⟨M, h0, fun st st' e e' r r' hr hf hr' hf' => hM st st' e e' r r' (fun t t0 t1 => ?_) hr hr'⟩
  have a := (hno st e).1 ⟨r, hr, hf⟩
  have a' := (hno st' e').1 ⟨r', hr', hf'⟩
  rw [hno]
  simp only [Pi.add_apply, Pi.smul_apply, smul_eq_mul]
  nlinarith [mul_le_mul_of_nonneg_left a (show 0 ≤ 1 - t by linarith), mul_le_mul_of_nonneg_left a' t0]

/-- **C163**: the hypotheses of `C163_errors_open` are met, with an error: in Ex17 with tables of every size. -/
theorem C163_errors_open_met (lMax kMax : Nat) (hl : 1 ≤ lMax) (hk : 1 ≤ kMax) (hL : lMax + 1 ≤ 999) : ∃ mod,
    Succeeded Ex17.lay Ex17.orc lMax kMax (serial kMax) mod ∧ Spec.StaysAbove Ex17.lay mod lMax kMax ∧
    ∃ r, tFunc mod 0 (fun _ => -4 - 4/3 * (kMax : Rat)) .none false = .ok r ∧ r.flag ≠ 0 := by
  obtain ⟨mod, h⟩ := Ex17.succeeds (b := -1) lMax kMax (fun _ _ => List.Perm.refl _)
  obtain ⟨c, hm, hc⟩ := search_cases h (by omega)
  obtain ⟨l, k, flag, -, -, b3, -⟩ := hc 0 (fun _ => -4 - 4/3 * (kMax : Rat))
  refine ⟨mod, h, Ex17.staysAbove h, _, b3, fun hf => ?_⟩
  have := (Ex17.no_error_iff h hl hk hL 0 _).1 ⟨_, b3, hf⟩
  simp only [Pi.zero_apply] at this
  linarith

end Pydsge
