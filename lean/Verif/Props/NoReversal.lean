import Verif.Props.AveragesEx
import Verif.Props.TimeCons
import Verif.Props.Edge
import Verif.Lemmas.MMatrix

/-!
# C191: when announced disturbances do not reverse
-/

set_option autoImplicit false
set_option linter.unusedSectionVars false
set_option linter.unusedSimpArgs false

namespace Pydsge

open Matrix Pydsge.Engine Pydsge.Spec Pydsge.Tools Pydsge.GenSys

variable {E ν ε o K : Type} [Fintype E] [Fintype ν] [Fintype ε] [Fintype o]
  [DecidableEq E] [DecidableEq ν] [DecidableEq ε] [Field K] [LinearOrder K] [IsStrictOrderedRing K]
variable {H z p : Type} [DecidableEq H] [Fintype H] [Fintype z] [Fintype p] [DecidableEq z] [DecidableEq p]
section Yaml
variable {D : Declared E ν ε K} {Z0 : Matrix o ν K} {Z1 : o → K} {tol : K} [DecidablePred (inall tol (yaml D Z0 Z1))]
  {lay : Layout tol (yaml D Z0 Z1) H z p}
  {orc : Oracle (Rows E H ε) (z ⊕ ε) p K} {lMax kMax : Nat} {sched : Nat → List Nat} {mod : Model z ε p o K}

theorem val_zero (lay : Layout tol (yaml D Z0 Z1) H z p) (w : ν ⊕ H) : lay.val (0 : p ⊕ z → K) w = 0 := by
  have := val_sub lay (0 : p ⊕ z → K) 0 w
  rwa [sub_self, sub_self] at this

theorem stateOf_comb (lay : Layout tol (yaml D Z0 Z1) H z p) (a b : ν → K) (c : K) :
    stateOf lay (fun v => a v + c * b v) = stateOf lay a + c • stateOf lay b := by
  have e : ∀ w : ν ⊕ H, Sum.elim (fun v => a v + c * b v) (fun h => a (lay.hyb h) + c * b (lay.hyb h)) w =
      Sum.elim a (fun h => a (lay.hyb h)) w + c * Sum.elim b (fun h => b (lay.hyb h)) w := by
    rintro (w | w) <;> rfl
  funext i
  rcases i with i | i
  · exact e _
  · exact e _

theorem joins_comb (h : Succeeded lay orc lMax kMax sched mod) {d d' : Nat → ν → K} {n : Nat} (hd : Spec.JoinsLinear lay mod 0 0 d n)
    (hd' : Spec.JoinsLinear lay mod 0 0 d' n) (c : K) : Spec.JoinsLinear lay mod 0 0 (fun s v => d s v + c * d' s v) n := by
  intro s hs
  obtain ⟨r, h1, h2⟩ := hd s hs
  obtain ⟨r', h1', h2'⟩ := hd' s hs
  rw [← tFunc_linear, tFunc_linear_eq h, shockAt_zero] at h1 h1'
  refine ⟨_, by rw [← tFunc_linear, tFunc_linear_eq h], fun v => ?_⟩
  cases h1
  cases h1'
  have hp : prev (0 : p ⊕ z → K) (fun s => stateOf lay (fun v => d s v + c * d' s v)) s =
      prev 0 (fun s => stateOf lay (d s)) s + c • prev 0 (fun s => stateOf lay (d' s)) s := by
    cases s with
    | zero => simp [prev]
    | succ s => exact stateOf_comb lay _ _ c
  rw [hp, shockAt_zero]
  generalize prev 0 (fun s => stateOf lay (d s)) s = a at *
  generalize prev 0 (fun s => stateOf lay (d' s)) s = b at *
  have hq : q0Of (a + c • b) (0 : ε → K) = q0Of a 0 + c • q0Of b 0 := by
    funext i
    rcases i with i | i <;> simp [q0Of]
  show d s v + c * d' s v = _
  rw [h2, h2', hq, mulVec_add, mulVec_add, mulVec_smul, mulVec_smul]
  have hv := val_weighted lay (Finset.univ : Finset Bool) (fun i => if i then c else 1)
    (fun i => if i then Sum.elim (mod.omg *ᵥ q0Of b 0) (fun i => (mod.lam *ᵥ q0Of b 0) (.inl i))
      else Sum.elim (mod.omg *ᵥ q0Of a 0) (fun i => (mod.lam *ᵥ q0Of a 0) (.inl i))) (.inl v)
  simp only [Fintype.sum_bool, if_true, Bool.false_eq_true, if_false, one_smul, one_mul] at hv
  rw [add_comm, ← hv]
  congr 1
  funext i
  rcases i with i | i <;> simp [add_comm]

theorem eqs_comb {d d' : Nat → ν → K} {s : Nat} (h1 : EqsHold D 0 0 d s) (h2 : EqsHold D 0 0 d' s) (c : K) :
    EqsHold D 0 0 (fun s v => d s v + c * d' s v) s := by
  have e : ∀ t, (fun v => d t v + c * d' t v) = d t + c • d' t := fun t => by
    funext v
    simp
  have hp : prev (0 : ν → K) (fun s v => d s v + c * d' s v) s = prev 0 d s + c • prev 0 d' s := by
    cases s with
    | zero => simp [prev]
    | succ s => exact e s
  unfold EqsHold at *
  simp only [e, hp, shockAt_zero, mulVec_add, mulVec_smul, mulVec_zero, add_zero] at *
  have := congrArg₂ (· + c • ·) h1 h2
  simp only [smul_zero, add_zero, smul_add] at this
  rw [← this]
  abel

theorem rule_comb (d d' : Nat → ν → K) (s : Nat) (c : K) : Spec.ruleAt (Spec.asSolved D) 0 0 (fun s v => d s v + c * d' s v) s =
    Spec.ruleAt (Spec.asSolved D) 0 0 d s + c * Spec.ruleAt (Spec.asSolved D) 0 0 d' s := by
  have e : ∀ t, (fun v => d t v + c * d' t v) = d t + c • d' t := fun t => by
    funext v
    simp
  have hp : prev (0 : ν → K) (fun s v => d s v + c * d' s v) s = prev 0 d s + c • prev 0 d' s := by
    cases s with
    | zero => simp [prev]
    | succ s => exact e s
  unfold Spec.ruleAt
  simp only [Spec.ruleValue_eq, e, hp, shockAt_zero, dotProduct_add, dotProduct_smul, dotProduct_zero, smul_eq_mul, Pi.add_apply, Pi.smul_apply]
  ring

/-- Responses add up, whether or not announcements reverse. -/
theorem response_comb (h : Succeeded lay orc lMax kMax sched mod) {d d' : Nat → ν → K} {w w' : Nat → K} (hd : Spec.AnnouncedResponse lay mod d w)
    (hd' : Spec.AnnouncedResponse lay mod d' w') (c : K) :
    Spec.AnnouncedResponse lay mod (fun s v => d s v + c * d' s v) (fun s => w s + c * w' s) := by
  obtain ⟨n, hn⟩ := hd.ends
  obtain ⟨n', hn'⟩ := hd'.ends
  refine ⟨fun s => eqs_comb (hd.eqs s) (hd'.eqs s) c, fun s => ?_, max n n',
    joins_comb h (joins_mono hn (le_max_left _ _)) (joins_mono hn' (le_max_right _ _)) c⟩
  rw [rule_comb]
  show d s D.cvar + c * d' s D.cvar = _
  rw [hd.rule s, hd'.rule s]
  ring

theorem response_zero (h : Succeeded lay orc lMax kMax sched mod) : Spec.AnnouncedResponse lay mod 0 0 := by
  refine ⟨fun s => ?_, fun s => ?_, 0, fun s _ => ?_⟩
  · have hp : prev (0 : ν → K) 0 s = 0 := by cases s <;> rfl
    unfold EqsHold
    simp [hp, shockAt_zero]
  · have hp : prev (0 : ν → K) 0 s = 0 := by cases s <;> rfl
    unfold Spec.ruleAt
    simp [Spec.ruleValue_eq, hp, shockAt_zero]
  · have e : stateOf lay (0 : ν → K) = 0 := by
      have := stateOf_sub lay (0 : ν → K) 0
      rwa [sub_self, sub_self] at this
    have hp : prev (0 : p ⊕ z → K) (fun s => stateOf lay ((0 : Nat → ν → K) s)) s = 0 := by
      cases s with
      | zero => rfl
      | succ s => exact e
    refine ⟨_, by rw [← tFunc_linear, tFunc_linear_eq h], fun v => ?_⟩
    have hq : q0Of (0 : p ⊕ z → K) (0 : ε → K) = 0 := by
      funext i
      rcases i with i | i <;> rfl
    rw [hp, shockAt_zero, hq]
    simp only [mulVec_zero]
    have e2 : (Sum.elim (0 : p → K) (fun i : z => (0 : z ⊕ ε → K) (.inl i))) = 0 := by
      funext i
      rcases i with i | i <;> rfl
    rw [e2, val_zero]
    rfl

theorem response_sum (h : Succeeded lay orc lMax kMax sched mod) {ι : Type} (S : Finset ι) (a : ι → K) {d : ι → Nat → ν → K} {w : ι → Nat → K}
    (hd : ∀ i ∈ S, Spec.AnnouncedResponse lay mod (d i) (w i)) :
    Spec.AnnouncedResponse lay mod (fun s v => ∑ i ∈ S, a i * d i s v) (fun s => ∑ i ∈ S, a i * w i s) := by
  classical
  induction S using Finset.induction_on with
  | empty =>
    simp only [Finset.sum_empty]
    exact response_zero h
  | insert i S hi ih =>
    have := response_comb h (ih fun j hj => hd j (Finset.mem_insert_of_mem hj)) (hd i (Finset.mem_insert_self i S)) (a i)
    simp only [Finset.sum_insert hi]
    simpa only [add_comm] using this

/-- Without announcements nothing happens. -/
theorem response_to_zero (h : Succeeded lay orc lMax kMax sched mod) (hlag : Spec.LagsNotExpected D) (hself : D.rb D.cvar ≠ 1) (hl1 : 1 ≤ lMax)
    {d : Nat → ν → K} (hd : Spec.AnnouncedResponse lay mod d 0) : d = 0 := by
  obtain ⟨n, hn⟩ := hd.ends
  have hsol : SolvesUnderSpell (Spec.asSolved D) (lagVal lay (0 : p ⊕ z → K)) 0 d 0 0 := by
    rw [lagVal_zero_of h]
    refine ⟨hd.eqs, fun s _ => ?_, fun s hs => ?_⟩
    · refine (rule_iff (D := Spec.asSolved D) hself 0 0 d s).1 ?_
      have : d s D.cvar = Spec.ruleAt (Spec.asSolved D) 0 0 d s := by simpa using hd.rule s
      exact this
    · unfold BindsAt at hs
      omega
  have hj := joins_back_many h hlag hself hl1 hsol (n := 0) le_rfl n (by rwa [Nat.zero_add])
  have e0 : stateOf lay (0 : ν → K) = 0 := by
    have := stateOf_sub lay (0 : ν → K) 0
    rwa [sub_self, sub_self] at this
  have step : ∀ s, prev (0 : p ⊕ z → K) (fun s => stateOf lay (d s)) s = 0 → d s = 0 := by
    intro s hp
    obtain ⟨r, h1, h2⟩ := hj s (Nat.zero_le s)
    have hq : q0Of (0 : p ⊕ z → K) (0 : ε → K) = 0 := by
      funext i
      rcases i with i | i <;> rfl
    rw [← tFunc_linear, tFunc_linear_eq h, hp, shockAt_zero, hq] at h1
    cases h1
    funext v
    rw [h2 v]
    simp only [mulVec_zero]
    have e2 : (Sum.elim (0 : p → K) (fun i : z => (0 : z ⊕ ε → K) (.inl i))) = 0 := by
      funext i
      rcases i with i | i <;> rfl
    rw [e2, val_zero]
    rfl
  funext s
  induction s with
  | zero => exact step 0 rfl
  | succ s ih =>
    refine step (s + 1) ?_
    show stateOf lay (d s) = 0
    rw [ih]
    exact e0

/-- The responses to single announcements, `d j` to an increase of the constrained variable by one in period `j`: none of them raises the constrained
variable in another period, and for every horizon there are positive announcements that raise it in all periods of the horizon. -/
structure Spec.Dominated (lay : Layout tol (yaml D Z0 Z1) H z p) (mod : Model z ε p o K) (d : Nat → Nat → ν → K) : Prop where
  responses : ∀ j, Spec.AnnouncedResponse lay mod (d j) (Spec.oneAt j)
  elsewhere : ∀ i j, i ≠ j → d j i D.cvar ≤ 0
  raise : ∀ n, ∃ u : Nat → K, (∀ j < n, 0 < u j) ∧ ∀ s < n, 0 < ∑ j ∈ Finset.range n, u j * d j s D.cvar

/-- every response is the combination of those to single announcements -/
theorem response_expand (h : Succeeded lay orc lMax kMax sched mod) (hlag : Spec.LagsNotExpected D) (hself : D.rb D.cvar ≠ 1) (hl1 : 1 ≤ lMax)
    {d : Nat → Nat → ν → K} (hd : ∀ j, Spec.AnnouncedResponse lay mod (d j) (Spec.oneAt j)) {x : Nat → ν → K} {w : Nat → K}
    (hx : Spec.AnnouncedResponse lay mod x w) {n : Nat} (hn : ∀ s, n ≤ s → w s = 0) (s : Nat) (v : ν) :
    x s v = ∑ j ∈ Finset.range n, w j * d j s v := by
  have h1 := response_sum h (Finset.range n) w (fun j _ => hd j)
  have hsum : ∀ s, ∑ j ∈ Finset.range n, w j * Spec.oneAt j s = w s := by
    intro s
    unfold Spec.oneAt
    simp only [mul_ite, mul_one, mul_zero, Finset.sum_ite_eq, Finset.mem_range]
    split_ifs with hs
    · rfl
    · exact (hn s (by omega)).symm
  simp only [hsum] at h1
  have h2 := response_comb h hx h1 (-1)
  have e : (fun s => w s + -1 * w s) = 0 := by
    funext s
    simp
  rw [e] at h2
  have h3 := response_to_zero h hlag hself hl1 h2
  have := congrFun (congrFun h3 s) v
  simp only [Pi.zero_apply] at this
  linarith

/-- If no combination of the responses to single announcements is reversed, no announced disturbances are. -/
theorem noReversalOf_of (h : Succeeded lay orc lMax kMax sched mod) (hlag : Spec.LagsNotExpected D) (hself : D.rb D.cvar ≠ 1) (hl1 : 1 ≤ lMax)
    {d : Nat → Nat → ν → K} (hd : ∀ j, Spec.AnnouncedResponse lay mod (d j) (Spec.oneAt j))
    (hA : ∀ (n : Nat) (w : Fin n → K), (∀ i, w i * ∑ j : Fin n, d j i D.cvar * w j ≤ 0) → w = 0) : Spec.NoReversalOf lay mod := by
  intro x w n heq hrule hj hw
  have hx : Spec.AnnouncedResponse lay mod x w := ⟨heq, hrule, n, hj⟩
  obtain ⟨n, hn⟩ := announced_ends h hlag hself hx
  have key := hA n (fun i => w i) (fun i => by
    have := hw i
    rw [response_expand h hlag hself hl1 hd hx hn, Finset.sum_range] at this
    simpa only [mul_comm] using this)
  have hw0 : w = 0 := by
    funext s
    by_cases hs : s < n
    · exact congrFun key ⟨s, hs⟩
    · exact hn s (by omega)
  subst hw0
  exact response_to_zero h hlag hself hl1 hx

/-- **C191.** Two conditions on the responses to single announcements are enough for announced disturbances not to reverse: -/
theorem C191_no_reversal (h : Succeeded lay orc lMax kMax sched mod) (hlag : Spec.LagsNotExpected D) (hself : D.rb D.cvar ≠ 1) (hl1 : 1 ≤ lMax)
    {d : Nat → Nat → ν → K} (hd : Spec.Dominated lay mod d) : Spec.NoReversalOf lay mod := by
  refine noReversalOf_of h hlag hself hl1 hd.responses fun n w hw => ?_
  obtain ⟨u, hu, hud⟩ := hd.raise n
  exact Lcp.noSignReversed_of_dominated (A := fun i j : Fin n => d j i D.cvar) (fun i j hij => hd.elsewhere _ _ fun hh => hij (Fin.ext hh))
    (u := fun j => u j) (fun j => hu j j.2) (fun i => by
      have := hud i i.2
      rw [Finset.sum_range] at this
      simpa only [mul_comm] using this) w hw

/-- **C191**, without a condition on signs: it is enough that, with some positive weights, the response of the constrained variable to the announcement of
the same period is larger than the sizes of its responses to the announcements of all other periods of the horizon together. Then there is exactly one
equilibrium for every state, shock and horizon. -/
theorem C191_dominant (h : Succeeded lay orc lMax kMax sched mod) (hlag : Spec.LagsNotExpected D) (hself : D.rb D.cvar ≠ 1) (hl1 : 1 ≤ lMax)
    {d : Nat → Nat → ν → K} (hd : ∀ j, Spec.AnnouncedResponse lay mod (d j) (Spec.oneAt j))
    (hdom : ∀ n, ∃ u : Nat → K, (∀ j < n, 0 < u j) ∧ ∀ s < n, ∑ j ∈ (Finset.range n).erase s, |d j s D.cvar| * u j < d s s D.cvar * u s) :
    Spec.NoReversalOf lay mod ∧ ∀ st0 eps n, ∃! x, Spec.EquilibriumUpTo lay mod st0 eps n x := by
  have hP := noReversalOf_of h hlag hself hl1 hd fun n w hw => by
    obtain ⟨u, hu, hud⟩ := hdom n
    refine Lcp.noSignReversed_of_dominant (A := fun i j : Fin n => d j i D.cvar) (u := fun j => u j) (fun j => hu j j.2) (fun i => ?_) w hw
    have h1 := hud i i.2
    have hi : (i : Nat) ∈ Finset.range n := Finset.mem_range.2 i.2
    have e1 := Finset.add_sum_erase _ (fun j => |d j i D.cvar| * u j) hi
    have e2 := Finset.add_sum_erase Finset.univ (fun j : Fin n => |d j i D.cvar| * u j) (Finset.mem_univ i)
    rw [Finset.sum_range] at e1
    linarith
  exact ⟨hP, fun st0 eps n => C181_exists_unique h hlag hself hP st0 eps n⟩

/-- **C191.** and they are necessary if announced increases of the constrained variable do not raise it in other periods. -/
theorem C191_iff (h : Succeeded lay orc lMax kMax sched mod) (hlag : Spec.LagsNotExpected D) (hself : D.rb D.cvar ≠ 1) (hl1 : 1 ≤ lMax) :
    (Spec.NoReversalOf lay mod ∧ Spec.LowersElsewhere lay mod) ↔ ∃ d, Spec.Dominated lay mod d := by
  constructor
  · rintro ⟨hP, hZ⟩
    have hex : ∀ j, ∃ x, Spec.AnnouncedResponse lay mod x (Spec.oneAt j) := fun j => by
      obtain ⟨x, hx, -⟩ := announced_exists_unique h hlag hself hP (n := j + 1) (w := Spec.oneAt j) fun s hs => by
        unfold Spec.oneAt
        rw [if_neg (by omega)]
      exact ⟨x, hx⟩
    choose d hd using hex
    have hoff : ∀ i j, i ≠ j → d j i D.cvar ≤ 0 := fun i j hij => (C188_elsewhere_iff h hlag hself hP).1 hZ j (d j) i (hd j) hij
    refine ⟨d, hd, hoff, fun n => ?_⟩
    let M : (Fin n → K) →ₗ[K] (Fin n → K) :=
      { toFun := fun w i => ∑ j, w j * d j i D.cvar
        map_add' := by intro a b; funext i; simp only [Pi.add_apply, add_mul, Finset.sum_add_distrib]
        map_smul' := by intro c a; funext i; simp only [Pi.smul_apply, smul_eq_mul, RingHom.id_apply, Finset.mul_sum, mul_assoc] }
    have hM : ∀ w i, M w i = ∑ j, w j * d j i D.cvar := fun _ _ => rfl
    have hns : Lcp.NoSignReversed M := by
      intro w hw
      have h1 := response_sum h (Finset.univ : Finset (Fin n)) w (fun j _ => hd j)
      have hsum : ∀ i : Fin n, ∑ j : Fin n, w j * Spec.oneAt (j : Nat) (i : Nat) = w i := by
        intro i
        have : ∀ j : Fin n, (Spec.oneAt (j : Nat) (i : Nat) : K) = if i = j then 1 else 0 := fun j => by
          unfold Spec.oneAt
          simp only [Fin.ext_iff]
        simp [this]
      have hlate : ∀ s, n ≤ s → ∑ j : Fin n, w j * Spec.oneAt (j : Nat) s = 0 := fun s hs => Finset.sum_eq_zero fun j _ => by
        unfold Spec.oneAt
        rw [if_neg (by omega), mul_zero]
      obtain ⟨m, hm⟩ := h1.ends
      have h0 := hP _ _ m h1.eqs h1.rule hm fun s => by
        by_cases hs : s < n
        · have := hw ⟨s, hs⟩
          rw [hM] at this
          rw [show ∑ j : Fin n, w j * Spec.oneAt (j : Nat) s = w ⟨s, hs⟩ from hsum ⟨s, hs⟩]
          exact this
        · rw [hlate s (by omega), zero_mul]
      funext i
      have h2 := h1.rule i
      have h3 : ∑ j : Fin n, w j * d j i D.cvar = 0 := congrFun (congrFun h0 i) D.cvar
      have e0 : (0 : K) = Spec.ruleAt (Spec.asSolved D) 0 0 (0 : Nat → ν → K) i + 0 := (response_zero (lay := lay) h).rule i
      rw [add_zero] at e0
      rw [h0, hsum, ← e0, zero_add] at h2
      exact h2.symm.trans h3
    obtain ⟨u, hu, hMu⟩ := Lcp.dominated_of_noSignReversed hns fun i j hij => by
      rw [hM]
      have : ∀ k : Fin n, (Pi.single j (1 : K) : Fin n → K) k * d k i D.cvar = if k = j then d k i D.cvar else 0 := fun k => by
        by_cases hk : k = j
        · subst hk; simp
        · simp [hk]
      simp only [this, Finset.sum_ite_eq', Finset.mem_univ, if_true]
      exact hoff _ _ fun hh => hij (Fin.ext hh)
    refine ⟨extW u, fun j hj => ?_, fun s hs => ?_⟩
    · rw [show extW u j = u ⟨j, hj⟩ from extW_fin u ⟨j, hj⟩]
      exact hu _
    · have := hMu ⟨s, hs⟩
      rw [hM] at this
      rw [Finset.sum_range]
      simp only [extW_fin]
      rw [this]
      exact one_pos
  · rintro ⟨d, hd⟩
    have hP := C191_no_reversal h hlag hself hl1 hd
    refine ⟨hP, (C188_elsewhere_iff h hlag hself hP).2 fun i x t hx ht => ?_⟩
    have : x = d i := (announced_exists_unique h hlag hself hP (n := i + 1) (w := Spec.oneAt i) fun s hs => by
      unfold Spec.oneAt
      rw [if_neg (by omega)]).unique hx (hd.responses i)
    rw [this]
    exact hd.elsewhere t i ht

/-- **C191.** In particular it is enough that being at the bound for longer raises the constrained variable: if in each period the response to the
announcement of this period is larger than the responses to all others in the horizon taken together. -/
theorem C191_sums (h : Succeeded lay orc lMax kMax sched mod) (hlag : Spec.LagsNotExpected D) (hself : D.rb D.cvar ≠ 1) (hl1 : 1 ≤ lMax)
    {d : Nat → Nat → ν → K} (h1 : ∀ j, Spec.AnnouncedResponse lay mod (d j) (Spec.oneAt j)) (h2 : ∀ i j, i ≠ j → d j i D.cvar ≤ 0)
    (h3 : ∀ n, ∀ s < n, 0 < ∑ j ∈ Finset.range n, d j s D.cvar) (st0 : p ⊕ z → K) (eps : ε → K) (n : Nat) :
    Spec.NoReversalOf lay mod ∧ Spec.LowersElsewhere lay mod ∧ ∃! x, Spec.EquilibriumUpTo lay mod st0 eps n x := by
  have hd : Spec.Dominated lay mod d := ⟨h1, h2, fun n => ⟨fun _ => 1, fun _ _ => one_pos, fun s hs => by simpa using h3 n s hs⟩⟩
  obtain ⟨a1, a2⟩ := (C191_iff h hlag hself hl1).2 ⟨d, hd⟩
  exact ⟨a1, a2, C181_exists_unique h hlag hself a1 st0 eps n⟩

end Yaml

/-- **C191**: the hypotheses of `C191_sums` are met. In `y = y(-1) - 4/3 r + e`, `r = max(3/4 y, -1)` the announcement for period `j` raises `r` by one half
in this period and lowers it in the following ones, by a quarter, an eighth, and so on: less than one half together. -/
theorem C191_hypotheses_met (lMax kMax : Nat) (hl : 1 ≤ lMax) : ∃ mod, ∃ d : Nat → Nat → Fin 2 → Rat, Succeeded Ex17.lay Ex17.orc lMax kMax (serial kMax) mod ∧
    Spec.LagsNotExpected Ex17.decl ∧ Ex17.decl.rb Ex17.decl.cvar ≠ 1 ∧ (∀ j, Spec.AnnouncedResponse Ex17.lay mod (d j) (Spec.oneAt j)) ∧
    (∀ i j, i ≠ j → d j i Ex17.decl.cvar ≤ 0) ∧ (∀ n, ∀ s < n, 0 < ∑ j ∈ Finset.range n, d j s Ex17.decl.cvar) ∧
    d 0 0 1 = 1/2 ∧ d 0 1 1 = -1/4 ∧ d 0 2 1 = -1/8 := by
  obtain ⟨mod, h⟩ := Ex17.succeeds (b := -1) lMax kMax (sched := serial kMax) (fun _ _ => List.Perm.refl _)
  obtain ⟨d, hd⟩ := (C191_iff h Ex17.lagsNotExpected Ex17.self_ne hl).1 ⟨Ex17.noReversalOf, Ex17.lowersElsewhere⟩
  have a0 := Ex17.response (hd.responses 0) 0
  have a1 := Ex17.response (hd.responses 0) 1
  have a2 := Ex17.response (hd.responses 0) 2
  simp only [prev, Spec.oneAt, Pi.zero_apply, if_true, one_ne_zero, OfNat.ofNat_ne_zero, if_false] at a0 a1 a2
  refine ⟨mod, d, h, Ex17.lagsNotExpected, Ex17.self_ne, hd.responses, hd.elsewhere, fun n s hs => ?_, ?_, ?_, ?_⟩
  · have h1 := response_sum h (Finset.range n) (fun _ => 1) (fun j _ => hd.responses j)
    simp only [one_mul] at h1
    have hone : ∀ t < n, ∑ j ∈ Finset.range n, (Spec.oneAt j t : Rat) = 1 := by
      intro t ht
      unfold Spec.oneAt
      simp [ht]
    have hy : ∀ t < n, -4/3 < ∑ j ∈ Finset.range n, d j t 0 := by
      intro t
      induction t with
      | zero =>
        intro ht
        have := (Ex17.response h1 0).1
        simp only [prev, hone 0 ht, Pi.zero_apply] at this
        rw [this]
        norm_num
      | succ t ih =>
        intro ht
        have := (Ex17.response h1 (t + 1)).1
        simp only [prev, hone (t + 1) ht] at this
        have := ih (by omega)
        linarith
    have hr := (Ex17.response h1 s).2
    rw [hone s hs] at hr
    show 0 < ∑ j ∈ Finset.range n, d j s 1
    rw [hr]
    cases s with
    | zero => simp [prev]
    | succ s =>
      simp only [prev]
      have := hy s (by omega)
      linarith
  · linarith [a0.2]
  · linarith [a0.1, a1.2]
  · linarith [a0.1, a1.1, a2.2]

/-- **C191**: and those of `C191_dominant`, with equal weights. -/
theorem C191_dominant_hypotheses_met (lMax kMax : Nat) (hl : 1 ≤ lMax) : ∃ mod, ∃ d : Nat → Nat → Fin 2 → Rat,
    Succeeded Ex17.lay Ex17.orc lMax kMax (serial kMax) mod ∧ (∀ j, Spec.AnnouncedResponse Ex17.lay mod (d j) (Spec.oneAt j)) ∧
    ∀ n, ∃ u : Nat → Rat, (∀ j < n, 0 < u j) ∧
      ∀ s < n, ∑ j ∈ (Finset.range n).erase s, |d j s Ex17.decl.cvar| * u j < d s s Ex17.decl.cvar * u s := by
  obtain ⟨mod, d, h, -, -, h1, h2, h3, -⟩ := C191_hypotheses_met lMax kMax hl
  refine ⟨mod, d, h, h1, fun n => ⟨fun _ => 1, fun _ _ => one_pos, fun s hs => ?_⟩⟩
  have e := Finset.add_sum_erase (Finset.range n) (fun j => d j s Ex17.decl.cvar) (Finset.mem_range.2 hs)
  have e2 : ∑ j ∈ (Finset.range n).erase s, |d j s Ex17.decl.cvar| * 1 = -∑ j ∈ (Finset.range n).erase s, d j s Ex17.decl.cvar := by
    rw [← Finset.sum_neg_distrib]
    refine Finset.sum_congr rfl fun j hj => ?_
    rw [abs_of_nonpos (h2 s j (Finset.ne_of_mem_erase hj).symm), mul_one]
  have := h3 n s hs
  rw [e2]
  linarith

end Pydsge
