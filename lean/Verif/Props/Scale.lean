import Verif.Props.UniqueEx

/-!
# C106: units do not matter

If the bound, the state and the shocks are multiplied by the same positive number, so are the paths, and the equilibria found are
the same.
-/

set_option autoImplicit false
set_option linter.unusedSectionVars false
set_option linter.unusedSimpArgs false

namespace Pydsge

open Matrix Pydsge.Engine Pydsge.Spec Pydsge.Tools Pydsge.GenSys

variable {E ν ε o K : Type} [Fintype E] [Fintype ν] [Fintype ε] [Fintype o]
  [DecidableEq E] [DecidableEq ν] [DecidableEq ε] [Field K] [LinearOrder K] [IsStrictOrderedRing K]
variable {H z p : Type} [DecidableEq H] [Fintype H] [Fintype z] [Fintype p] [DecidableEq z] [DecidableEq p]

/-- `D'` is `D` in other units: the same equations, the bound is `a` times as large. -/
structure Spec.Rescaled (a : K) (D D' : Declared E ν ε K) : Prop where
  A : D'.A = D.A
  B : D'.B = D.B
  C : D'.C = D.C
  Dm : D'.D = D.D
  cvar : D'.cvar = D.cvar
  rb : D'.rb = D.rb
  rc : D'.rc = D.rc
  rd : D'.rd = D.rd
  xbar : D'.xbar = a * D.xbar

theorem prev_smul (a : K) {S : Type} (x0 : S → K) (x : Nat → S → K) (s : Nat) :
    prev (a • x0) (fun s => a • x s) s = a • prev x0 x s := by
  cases s <;> rfl

theorem shockAt_smul (a : K) (eps : ε → K) (s : Nat) : shockAt (a • eps) s = a • shockAt eps s := by
  cases s
  · rfl
  · funext e; simp [shockAt]

theorem Spec.Rescaled.solves {a : K} {D D' : Declared E ν ε K} (h : Rescaled a D D') {xlag : ν → K} {eps : ε → K}
    {x : Nat → ν → K} {l k : Nat} (hx : SolvesUnderSpell D xlag eps x l k) :
    SolvesUnderSpell D' (a • xlag) (a • eps) (fun s => a • x s) l k := by
  refine ⟨fun s => ?_, fun s hs => ?_, fun s hs => ?_⟩
  · have := hx.eqs s
    unfold EqsHold at this ⊢
    rw [prev_smul, shockAt_smul, h.A, h.B, h.C, h.Dm]
    simp only [mulVec_smul, ← smul_add, this, smul_zero]
  · have := hx.slack s hs
    unfold notional at this ⊢
    rw [prev_smul, shockAt_smul, h.rb, h.rc, h.rd, h.cvar]
    simp only [dotProduct_smul, ← smul_add, Pi.smul_apply, this]
  · rw [h.cvar, h.xbar, ← hx.binding s hs]
    rfl

theorem Spec.Rescaled.asSolved {a : K} {D D' : Declared E ν ε K} (h : Rescaled a D D') :
    Rescaled a (Spec.asSolved D) (Spec.asSolved D') := by
  refine ⟨h.A, h.B, h.C, h.Dm, h.cvar, h.rb, ?_, ?_, h.xbar⟩
  · funext v
    show -D'.rc v = -D.rc v
    rw [h.rc]
  · funext e
    show (1 - D'.rb D'.cvar) * D'.rd e = (1 - D.rb D.cvar) * D.rd e
    rw [h.rb, h.cvar, h.rd]

theorem Spec.Rescaled.lagsNotExpected {a : K} {D D' : Declared E ν ε K} (h : Rescaled a D D') (hD : Spec.LagsNotExpected D) :
    Spec.LagsNotExpected D' := by
  intro v hv e
  rw [h.A]
  exact hD v (by rw [← h.rc]; exact hv) e

theorem Spec.Rescaled.ruleValue {a : K} {D D' : Declared E ν ε K} (h : Rescaled a D D') (xlag : ν → K) (eps : ε → K) (x : ν → K) :
    Spec.ruleValue D' (a • xlag) (a • eps) (a • x) = a * Spec.ruleValue D xlag eps x := by
  rw [Spec.ruleValue_eq, Spec.ruleValue_eq, h.rb, h.cvar, h.rc, h.rd]
  simp only [dotProduct_smul, smul_eq_mul, Pi.smul_apply]
  ring

section
variable {tol : K} {m : Input E ν ε o K} [DecidablePred (inall tol m)]

theorem val_smul (lay : Layout tol m H z p) (a : K) (st : p ⊕ z → K) (w : ν ⊕ H) :
    lay.val (a • st) w = a * lay.val st w := by
  unfold Layout.val
  simp only [Pi.smul_apply, smul_eq_mul, mul_add, Finset.mul_sum, mul_ite, mul_zero]

theorem lagVal_smul (lay : Layout tol m H z p) (a : K) (st : p ⊕ z → K) : lagVal lay (a • st) = a • lagVal lay st := by
  funext v
  simp only [lagVal, val_smul, Pi.smul_apply, smul_eq_mul, mul_ite, Finset.mul_sum, mul_zero]

theorem q0Of_smul (a : K) (st : p ⊕ z → K) (eps : ε → K) : q0Of (a • st) (a • eps) = a • q0Of st eps := by
  funext j; rcases j with j | j <;> rfl

/-- The linear step is homogeneous. -/
theorem linear_step_smul {lay : Layout tol m H z p} {orc : Oracle (Rows E H ε) (z ⊕ ε) p K} {lMax kMax : Nat}
    {sched : Nat → List Nat} {mod : Model z ε p o K} (h : Succeeded lay orc lMax kMax sched mod) (a : K) (st : p ⊕ z → K)
    (eps : ε → K) {r : Step z p K} (hr : tFunc mod st eps (.pair 0 0) false = .ok r) :
    ∃ r', tFunc mod (a • st) (a • eps) (.pair 0 0) false = .ok r' ∧ r'.state = a • r.state := by
  obtain ⟨c, hm⟩ := genSys_ok h.perm h.gen
  obtain ⟨M, hS⟩ := hm.eng
  have := h.states
  have g1 := tFunc_pair hm st eps (Nat.zero_le lMax) (Nat.zero_le kMax)
  have g2 := tFunc_pair hm (a • st) (a • eps) (Nat.zero_le lMax) (Nat.zero_le kMax)
  simp only [Nat.cast_zero] at g1 g2
  rw [g1] at hr
  cases hr
  refine ⟨_, g2, ?_⟩
  simp only [xPath_zero, hS.complete.start, q0Of_smul, mulVec_smul, add_zero]
  funext j
  rcases j with j | j <;> rfl

end

section Same
variable {H' z' p' : Type} [DecidableEq H'] [Fintype H'] [Fintype z'] [Fintype p'] [DecidableEq z'] [DecidableEq p']
variable {D : Declared E ν ε K} {Z0 : Matrix o ν K} {Z1 : o → K} {tol : K} [DecidablePred (inall tol (yaml D Z0 Z1))]
  {lay : Layout tol (yaml D Z0 Z1) H z p}
  {orc : Oracle (Rows E H ε) (z ⊕ ε) p K} {lMax kMax : Nat} {sched : Nat → List Nat} {mod : Model z ε p o K}
variable {D' : Declared E ν ε K} {Z0' : Matrix o ν K} {Z1' : o → K} {tol' : K} [DecidablePred (inall tol' (yaml D' Z0' Z1'))]
  {lay' : Layout tol' (yaml D' Z0' Z1') H' z' p'}
  {orc' : Oracle (Rows E H' ε) (z' ⊕ ε) p' K} {lMax' kMax' : Nat} {sched' : Nat → List Nat} {mod' : Model z' ε p' o K}
  {a : K}

/-- **C106**: expected paths scale with the units. -/
theorem C106_paths_scale (h : Succeeded lay orc lMax kMax sched mod) (h' : Succeeded lay' orc' lMax' kMax' sched' mod')
    (hD : Spec.Rescaled a D D') (hlin : Spec.SameLinear lay mod lay' mod') (hlag : Spec.LagsNotExpected D) (hself : D.rb D.cvar ≠ 1)
    {l k : Nat} (hl : l ≤ lMax) (hk : k ≤ kMax) (hl' : l ≤ lMax') (hk' : k ≤ kMax')
    {st : p ⊕ z → K} {st' : p' ⊕ z' → K} (hst : lagVal lay' st' = a • lagVal lay st) {eps : ε → K} {X : Nat → p ⊕ z → K}
    {X' : Nat → p' ⊕ z' → K} (hX : ExpectedPath mod l k st eps X) (hX' : ExpectedPath mod' l k st' (a • eps) X') (s : Nat) (v : ν) :
    lay'.val (X' s) (.inl v) = a * lay.val (X s) (.inl v) := by
  have hf := noLagFwd_of_not_expected (Z0 := Z0) (Z1 := Z1) hlag
  have hlag' : Spec.LagsNotExpected D' := hD.lagsNotExpected hlag
  have hself' : D'.rb D'.cvar ≠ 1 := by rw [hD.rb, hD.cvar]; exact hself
  have hf' := noLagFwd_of_not_expected (Z0 := Z0') (Z1 := Z1') hlag'
  let x : Nat → ν → K := fun s v => lay.val (X s) (.inl v)
  have h1 : SolvesUnderSpell (Spec.asSolved D') (lagVal lay' st') (a • eps) (fun s => a • x s) l k := by
    rw [hst]
    exact hD.asSolved.solves (C148_paths_solve h hlag hself hl hk st eps X hX)
  have h2 : Spec.JoinsLinear lay' mod' st' (a • eps) (fun s => a • x s) (l + k) := by
    intro s hs
    obtain ⟨r, h1, h2⟩ := hX s
    have e1 : elapsed l k s = (0, 0) := by
      unfold elapsed; split_ifs <;> refine Prod.ext ?_ ?_ <;> dsimp only <;> omega
    rw [e1] at h1
    obtain ⟨r2, h3, h4⟩ := linear_step_smul h a _ _ h1
    obtain ⟨r', hr'⟩ := expected_exists h' (Nat.zero_le _) (Nat.zero_le _)
      (prev st' (fun s => stateOf lay' (a • x s)) s) (shockAt (a • eps) s)
    refine ⟨r', hr', fun v => ?_⟩
    rw [shockAt_smul] at hr'
    have := hlin _ _ _ r2 r' ?_ h3 hr' v
    · rw [← this, h4, val_smul, ← h2]
      rfl
    · rw [lagVal_smul, expected_lagVal h hf hl hk hX s, lagVal_prev_of lay' st' (fun s => a • x s) h'.square, hst, prev_smul]
  have h3 := C148_unique_path h' hlag' hself' hl' hk' st' (a • eps) _ h1 h2
  obtain ⟨c', hm'⟩ := genSys_ok h'.perm h'.gen
  have g1 := (expectedPath_iff hm' h'.orc h'.noTiny h'.square h'.states hf' hl' hk' st' (a • eps) _).1 h3 s
  have g2 := (expectedPath_iff hm' h'.orc h'.noTiny h'.square h'.states hf' hl' hk' st' (a • eps) _).1 hX' s
  rw [g2, ← g1, val_stateOf lay' h'.square]
  rfl

/-- The search compares scaled values with a scaled bound. -/
theorem findLk_scale {v : Fin 5 → Nat → Nat → K} {rd rd' : Reader K} {xbar : K} {L Kk : Nat} (ha : 0 < a)
    (hr : Reads rd v L Kk) (hr' : Reads rd' (fun i l k => a * v i l k) L Kk) (hL : 0 < L) (hK : 1 < Kk) :
    findLk rd' (a * xbar) L Kk = findLk rd xbar L Kk := by
  have hlt : ∀ x, (a * x - a * xbar < 0) ↔ (x - xbar < 0) := fun x => by
    rw [← mul_sub, mul_neg_iff]; constructor
    · rintro (⟨-, h⟩ | ⟨h, -⟩)
      · exact h
      · exact absurd h (not_lt.2 ha.le)
    · intro h; exact Or.inl ⟨ha, h⟩
  have hgt : ∀ x, (a * x - a * xbar > 0) ↔ (x - xbar > 0) := fun x => by
    rw [← mul_sub]; exact mul_pos_iff_of_pos_left ha
  have hsl : ∀ n l, L - l = n → l < L → slackLoop rd' (a * xbar) L l = slackLoop rd xbar L l := by
    intro n
    induction n with
    | zero => intro l h1 h2; omega
    | succ n ih =>
      intro l h1 h2
      conv_lhs => rw [slackLoop]
      conv_rhs => rw [slackLoop]
      rw [if_pos h2, if_pos h2, hr 2 l 0 h2 (by omega) (by simp) (by simp),
        hr' 2 l 0 h2 (by omega) (by simp) (by simp)]
      simp only [hgt]
      by_cases hc : v 2 l 0 - xbar > 0
      · rw [if_pos hc, if_pos hc]
        by_cases hL1 : l + 1 = L
        · rw [if_pos hL1, if_pos hL1]
        · rw [if_neg hL1, if_neg hL1]
          exact ih (l + 1) (by omega) (by omega)
      · rw [if_neg hc, if_neg hc]
  have hacc : ∀ l k, l < L → k < Kk → 1 ≤ k → accepts rd' (a * xbar) l k = accepts rd xbar l k := by
    intro l k hl hk hk1
    rw [accepts_spec hr hl hk hk1, accepts_spec hr' hl hk hk1]
    congr 1
    rw [decide_eq_decide]
    have hle : ∀ x, a * xbar ≤ a * x ↔ xbar ≤ x := fun x => mul_le_mul_iff_right₀ ha
    have hle' : ∀ x, a * x ≤ a * xbar ↔ x ≤ xbar := fun x => mul_le_mul_iff_right₀ ha
    constructor
    · rintro ⟨a1, a2, a3, a4, a5, a6⟩
      simp only [hle, hle'] at a2 a3 a4 a5 a6
      exact ⟨a1, a2, a3, a4, a5, a6⟩
    · rintro ⟨a1, a2, a3, a4, a5, a6⟩
      refine ⟨a1, ?_, ?_, ?_, ?_, ?_⟩ <;> simp only [hle, hle'] <;> assumption
  have hbk : ∀ n l k, Kk - k = n → l < L → 1 ≤ k → bruiteK rd' (a * xbar) Kk l k = bruiteK rd xbar Kk l k := by
    intro n
    induction n with
    | zero =>
      intro l k h1 _ _
      conv_lhs => rw [bruiteK]
      conv_rhs => rw [bruiteK]
      rw [if_neg (by omega), if_neg (by omega)]
    | succ n ih =>
      intro l k h1 h2 h3
      conv_lhs => rw [bruiteK]
      conv_rhs => rw [bruiteK]
      rw [if_pos (by omega), if_pos (by omega), hacc l k h2 (by omega) h3, ih l (k + 1) (by omega) h2 (by omega)]
  have hbl : ∀ n l, L - l = n → bruiteL rd' (a * xbar) L Kk l = bruiteL rd xbar L Kk l := by
    intro n
    induction n with
    | zero =>
      intro l h1
      conv_lhs => rw [bruiteL]
      conv_rhs => rw [bruiteL]
      rw [if_neg (by omega), if_neg (by omega)]
    | succ n ih =>
      intro l h1
      conv_lhs => rw [bruiteL]
      conv_rhs => rw [bruiteL]
      rw [if_pos (by omega), if_pos (by omega), hbk _ l 1 rfl (by omega) le_rfl, ih (l + 1) (by omega)]
  have hap : ∀ n k lt, Kk - k = n → approxLoop rd' (a * xbar) Kk k lt = approxLoop rd xbar Kk k lt := by
    intro n
    induction n with
    | zero =>
      intro k lt h1
      conv_lhs => rw [approxLoop]
      conv_rhs => rw [approxLoop]
      rw [if_neg (by omega), if_neg (by omega)]
    | succ n ih =>
      intro k lt h1
      conv_lhs => rw [approxLoop]
      conv_rhs => rw [approxLoop]
      by_cases hk : k + 1 < Kk
      · rw [if_pos hk, if_pos hk, hr 4 0 (k+1) hL hk (by simp) (by simp), hr' 4 0 (k+1) hL hk (by simp) (by simp)]
        simp only [hlt, hgt, ih (k + 1) _ (by omega)]
      · rw [if_neg hk, if_neg hk]
  unfold findLk bruiteWrapper
  rw [hsl _ 0 rfl hL, hbl _ 0 rfl, hap _ 0 false rfl]

/-- **C106** for transitions with the endogenous search: the same equilibrium and flag, all declared variables scaled. -/
theorem C106_transition_scales (h : Succeeded lay orc lMax kMax sched mod) (h' : Succeeded lay' orc' lMax kMax sched' mod')
    (ha : 0 < a) (hk1 : 1 ≤ kMax) (hD : Spec.Rescaled a D D') (hlin : Spec.SameLinear lay mod lay' mod') (hlag : Spec.LagsNotExpected D)
    (hself : D.rb D.cvar ≠ 1) {st : p ⊕ z → K} {st' : p' ⊕ z' → K} (hst : lagVal lay' st' = a • lagVal lay st) (eps : ε → K) :
    ∃ r r', tFunc mod st eps .none false = .ok r ∧ tFunc mod' st' (a • eps) .none false = .ok r' ∧ r'.l = r.l ∧ r'.k = r.k ∧
      r'.flag = r.flag ∧ (∀ v, lay'.val r'.state (.inl v) = a * lay.val r.state (.inl v)) ∧
      lagVal lay' r'.state = a • lagVal lay r.state := by
  have hlag' : Spec.LagsNotExpected D' := hD.lagsNotExpected hlag
  have hself' : D'.rb D'.cvar ≠ 1 := by rw [hD.rb, hD.cvar]; exact hself
  obtain ⟨c, hm⟩ := genSys_ok h.perm h.gen
  obtain ⟨M, hS⟩ := hm.eng
  obtain ⟨c', hm'⟩ := genSys_ok h'.perm h'.gen
  obtain ⟨M', hS'⟩ := hm'.eng
  have := h.states
  have := h'.states
  have hv : ∀ l k, l ≤ lMax → k ≤ kMax → ∀ s v, lay'.val (xPath c' l k (q0Of st' (a • eps)) s) (.inl v) =
      a * lay.val (xPath c l k (q0Of st eps) s) (.inl v) := by
    intro l k hl hk s v
    exact C106_paths_scale h h' hD hlin hlag hself hl hk hl hk hst
      ((expectedPath_iff hm h.orc h.noTiny h.square h.states (noLagFwd_of_not_expected hlag) hl hk st eps _).2 fun _ => rfl)
      ((expectedPath_iff hm' h'.orc h'.noTiny h'.square h'.states (noLagFwd_of_not_expected hlag') hl hk st' (a • eps) _).2 fun _ => rfl)
      s v
  have hpv : ∀ l k, l ≤ lMax → k ≤ kMax → ∀ s, pathValue (ff lay') c' (q0Of st' (a • eps)) l k s =
      a * pathValue (ff lay) c (q0Of st eps) l k s := by
    intro l k hl hk s
    have e1 : ∀ s, (fun v => lay'.val (xPath c' l k (q0Of st' (a • eps)) s) (.inl v)) =
        a • fun v => lay.val (xPath c l k (q0Of st eps) s) (.inl v) := fun s => funext fun v => hv l k hl hk s v
    rw [pathValue_at h hm hlag hself hl hk, pathValue_at h' hm' hlag' hself' hl hk, shockAt_smul, hst]
    have eF : (fun s v => lay'.val (xPath c' l k (q0Of st' (a • eps)) s) (.inl v)) =
        fun s => a • fun v => lay.val (xPath c l k (q0Of st eps) s) (.inl v) := funext e1
    rw [eF, e1 s, prev_smul, hD.asSolved.ruleValue]
  have hxb : mod'.xbar = a * mod.xbar := by rw [hm.xbar, hm'.xbar]; exact hD.xbar
  have hr := checkCnst_reads hS (q0Of st eps)
  have hr' : Reads (checkCnst mod'.tables (q0Of st' (a • eps)))
      (fun i l k => a * pathValue (ff lay) c (q0Of st eps) l k (slotPeriod l k i)) (lMax + 1) (kMax + 1) := by
    intro i l k h1 h2 h3 h4
    rw [checkCnst_reads hS' (q0Of st' (a • eps)) i l k h1 h2 h3 h4]
    exact congrArg _ (hpv l k (by omega) (by omega) _)
  obtain ⟨l, k, flag, hf, hl, hk, -⟩ := findLk_cases (xbar := mod.xbar) hr (by omega) (by omega)
  have hf' := findLk_scale (xbar := mod.xbar) ha hr hr' (by omega) (by omega)
  rw [hf, ← hxb] at hf'
  refine ⟨_, _, tFunc_find hm st eps hf (by omega) (by omega), tFunc_find hm' st' (a • eps) hf' (by omega) (by omega), rfl, rfl,
    rfl, hv l k (by omega) (by omega) 0, ?_⟩
  have hX := (expectedPath_iff hm h.orc h.noTiny h.square h.states (noLagFwd_of_not_expected hlag) (show l ≤ lMax by omega)
    (show k ≤ kMax by omega) st eps _).2 fun _ => rfl
  have hX' := (expectedPath_iff hm' h'.orc h'.noTiny h'.square h'.states (noLagFwd_of_not_expected hlag') (show l ≤ lMax by omega)
    (show k ≤ kMax by omega) st' (a • eps) _).2 fun _ => rfl
  have e1 := expected_lagVal h (noLagFwd_of_not_expected hlag) (show l ≤ lMax by omega) (show k ≤ kMax by omega) hX 1
  have e2 := expected_lagVal h' (noLagFwd_of_not_expected hlag') (show l ≤ lMax by omega) (show k ≤ kMax by omega) hX' 1
  refine e2.trans (Eq.trans ?_ (congrArg (fun w => a • w) e1.symm))
  funext v
  exact hv l k (by omega) (by omega) 0 v

/-- **C106** for simulations. -/
theorem C106_simulation_scales (h : Succeeded lay orc lMax kMax sched mod) (h' : Succeeded lay' orc' lMax kMax sched' mod')
    (ha : 0 < a) (hk1 : 1 ≤ kMax) (hD : Spec.Rescaled a D D') (hlin : Spec.SameLinear lay mod lay' mod') (hlag : Spec.LagsNotExpected D)
    (hself : D.rb D.cvar ≠ 1) (es : List (ε → K)) {st : p ⊕ z → K} {st' : p' ⊕ z' → K}
    (hst : lagVal lay' st' = a • lagVal lay st) :
    ∃ res res', simLoop mod false st es = .ok res ∧ simLoop mod' false st' (es.map (a • ·)) = .ok res' ∧ res'.LK = res.LK ∧
      res'.flag = res.flag ∧ ∃ X X', res.X = st :: X ∧ res'.X = st' :: X' ∧
        X'.map (fun x v => lay'.val x (.inl v)) = X.map (fun x v => a * lay.val x (.inl v)) := by
  induction es generalizing st st' with
  | nil => exact ⟨_, _, rfl, rfl, rfl, rfl, [], [], rfl, rfl, rfl⟩
  | cons e es ih =>
    obtain ⟨r, r', h1, h2, h3, h4, h5, h6, h7⟩ := C106_transition_scales h h' ha hk1 hD hlin hlag hself hst e
    obtain ⟨res, res', g1, g2, g3, g4, X, X', g5, g6, g7⟩ := ih h7
    refine ⟨⟨st :: res.X, (r.l, r.k) :: res.LK, r.flag ||| res.flag⟩, ⟨st' :: res'.X, (r'.l, r'.k) :: res'.LK, r'.flag ||| res'.flag⟩,
      by simp only [simLoop, h1, g1], by simp only [List.map_cons, simLoop, h2, g2], ?_, ?_, res.X, res'.X, rfl, rfl, ?_⟩
    · simp only [h3, h4, g3]
    · simp only [h5, g4]
    · rw [g5, g6, List.map_cons, List.map_cons, g7]
      congr 1
      funext v
      exact h6 v

end Same

/-- C106: the model of `Examples/Ex1.lean` with the bounds `-1` and `-2`; with the shock `-9/4` the constraint binds. -/
theorem C106_hypotheses_met : ∃ mod mod', Succeeded (Ex1.layB (-1)) Ex1.orc 2 30 (serial 30) mod ∧
    Succeeded (Ex1.layB (-2)) Ex1.orc 2 30 (serial 30) mod' ∧ Spec.Rescaled 2 (Ex1.declB (-1)) (Ex1.declB (-2)) ∧
    Spec.SameLinear (Ex1.layB (-1)) mod (Ex1.layB (-2)) mod' ∧ Spec.LagsNotExpected (Ex1.declB (-1)) ∧
    (Ex1.declB (-1)).rb (Ex1.declB (-1)).cvar ≠ 1 ∧
    ∃ r, tFunc mod 0 (fun _ => -9/4) .none false = .ok r ∧ r.flag = 0 ∧ r.k = 1 := by
  obtain ⟨mod, h⟩ := Ex1.succeeds (b := -1) 2 30 (Ex1.serial_perm 2 30)
  obtain ⟨mod', h'⟩ := Ex1.succeeds (b := -2) 2 30 (Ex1.serial_perm 2 30)
  obtain ⟨r, g1, g2, g3, g4, -, -⟩ := Ex1.binding_run 2 30 (by omega) (by omega) h
  refine ⟨mod, mod', h, h', ⟨rfl, rfl, rfl, rfl, rfl, rfl, rfl, rfl, by show (-2 : Rat) = 2 * (-1); norm_num⟩, ?_, Ex1.lagsNotExpected, Ex1.self_ne_one,
    r, g1, g4, g3⟩
  intro st st' eps r r' hst hr hr' v
  obtain ⟨c, hm⟩ := genSys_ok h.perm h.gen
  obtain ⟨M, hS⟩ := hm.eng
  obtain ⟨c', hm'⟩ := genSys_ok h'.perm h'.gen
  obtain ⟨M', hS'⟩ := hm'.eng
  have := h.states
  have g1 := tFunc_pair hm st eps (Nat.zero_le 2) (Nat.zero_le 30)
  have g2 := tFunc_pair hm' st' eps (Nat.zero_le 2) (Nat.zero_le 30)
  simp only [Nat.cast_zero] at g1 g2
  rw [g1] at hr
  rw [g2] at hr'
  cases hr
  cases hr'
  have k1 : (Except.ok (Ex1.omg, Ex1.lam) : Except PyErr _) = .ok (mod.omg, mod.lam) := hm.kl
  have k2 : (Except.ok (Ex1.omg, Ex1.lam) : Except PyErr _) = .ok (mod'.omg, mod'.lam) := hm'.kl
  have hk := k1.symm.trans k2
  simp only [Except.ok.injEq, Prod.mk.injEq] at hk
  have hc : c 0 0 = c' 0 0 := by rw [hS.complete.start, hS'.complete.start, hk.1, hk.2]
  have hl : lagVal (Ex1.layB (-2)) st' = lagVal (Ex1.layB (-1)) st' := by
    funext v
    unfold lagVal
    rw [if_neg (Ex1.not_inall v), if_neg (Ex1.not_inall v)]
    rfl
  have hq : q0Of st eps = q0Of st' eps := by
    funext j
    rcases j with i | e
    · exact state_of_lags h.noTiny Ex1.lagsNotExpected (hst.trans hl) i
    · rfl
  simp only [xPath_zero, hc, hq]
  rfl

end Pydsge
