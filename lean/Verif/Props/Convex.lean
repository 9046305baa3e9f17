import Verif.Props.Stability

/-!
# C142: where the transition is affine
-/

set_option autoImplicit false
set_option linter.unusedSectionVars false
set_option linter.unusedSimpArgs false

namespace Pydsge

open Matrix Pydsge.Engine Pydsge.Spec Pydsge.Tools Pydsge.GenSys

variable {E ν ε o K : Type} [Fintype E] [Fintype ν] [Fintype ε] [Fintype o]
  [DecidableEq E] [DecidableEq ν] [DecidableEq ε] [Field K] [LinearOrder K] [IsStrictOrderedRing K]
variable {H z p : Type} [DecidableEq H] [Fintype H] [Fintype z] [Fintype p] [DecidableEq z] [DecidableEq p]
variable {tol : K} {m : Input E ν ε o K} [DecidablePred (inall tol m)] {lay : Layout tol m H z p}
  {orc : Oracle (Rows E H ε) (z ⊕ ε) p K} {lMax kMax : Nat} {sched : Nat → List Nat} {mod : Model z ε p o K}

/-! ## Values along a spell are affine -/

theorem q0Of_mix (a b : K) (st st' : p ⊕ z → K) (e e' : ε → K) :
    q0Of (a • st + b • st') (a • e + b • e') = a • q0Of st e + b • q0Of st' e' := by
  funext i
  rcases i with i | i <;> simp [q0Of]

theorem pathValue_mix {q : Type} [Fintype q] [DecidableEq q] (f : Fun3 q p K) (c : Nat → Nat → Cell q p K) (l k s : Nat) {a b : K} (hab : a + b = 1) (q0 q0' : q → K) :
    pathValue f c (a • q0 + b • q0') l k s = a * pathValue f c q0 l k s + b * pathValue f c q0' l k s := by
  have e : ∀ q0, pathValue f c q0 l k s = (rowAt f c l k s).1 ⬝ᵥ q0 + (rowAt f c l k s).2 := fun q0 => (rowAt_value f c l k s q0).symm
  rw [e, e, e, dotProduct_add, dotProduct_smul, dotProduct_smul, smul_eq_mul, smul_eq_mul]
  linear_combination -(rowAt f c l k s).2 * hab

theorem xPath_mix (c : Nat → Nat → Cell (z ⊕ ε) p K) (l k : Nat) {a b : K} (hab : a + b = 1) (q0 q0' : z ⊕ ε → K) :
    xPath c l k (a • q0 + b • q0') 0 = a • xPath c l k q0 0 + b • xPath c l k q0' 0 := by
  have hb : b = 1 - a := by linear_combination hab
  subst hb
  rw [xPath_zero, xPath_zero, xPath_zero]
  funext i
  rcases i with i | i <;> simp [mulVec_add, mulVec_smul] <;> ring

theorem mix_lt {a b x u v : K} (ha : 0 ≤ a) (hb : 0 ≤ b) (hab : a + b = 1) (hu : x < u) (hv : x < v) : x < a * u + b * v := by
  have : a * x + b * x = x := by rw [← add_mul, hab, one_mul]
  rcases ha.eq_or_lt with h | h
  · subst h
    have : b = 1 := by linarith
    subst this
    simpa using hv
  · have h1 := mul_lt_mul_of_pos_left hu h
    have h2 := mul_le_mul_of_nonneg_left hv.le hb
    linarith

theorem mix_le {a b x u v : K} (ha : 0 ≤ a) (hb : 0 ≤ b) (hab : a + b = 1) (hu : x ≤ u) (hv : x ≤ v) : x ≤ a * u + b * v := by
  have : a * x + b * x = x := by rw [← add_mul, hab, one_mul]
  have h1 := mul_le_mul_of_nonneg_left hu ha
  have h2 := mul_le_mul_of_nonneg_left hv hb
  linarith

theorem mix_ge {a b x u v : K} (ha : 0 ≤ a) (hb : 0 ≤ b) (hab : a + b = 1) (hu : u ≤ x) (hv : v ≤ x) : a * u + b * v ≤ x := by
  have : a * x + b * x = x := by rw [← add_mul, hab, one_mul]
  have h1 := mul_le_mul_of_nonneg_left hu ha
  have h2 := mul_le_mul_of_nonneg_left hv hb
  linarith

/-- The five values of `check_cnst` for all spells. -/
def valuesAt (lay : Layout tol m H z p) (c : Nat → Nat → Cell (z ⊕ ε) p K) (st : p ⊕ z → K) (e : ε → K) : Fin 5 → Nat → Nat → K :=
  fun i l k => pathValue (ff lay) c (q0Of st e) l k (slotPeriod l k i)

theorem valuesAt_mix (lay : Layout tol m H z p) (c : Nat → Nat → Cell (z ⊕ ε) p K) {a b : K} (hab : a + b = 1) (st st' : p ⊕ z → K) (e e' : ε → K)
    (i : Fin 5) (l k : Nat) :
    valuesAt lay c (a • st + b • st') (a • e + b • e') i l k = a * valuesAt lay c st e i l k + b * valuesAt lay c st' e' i l k := by
  unfold valuesAt
  rw [q0Of_mix, pathValue_mix _ _ _ _ _ hab]

/-- What the search may return. -/
theorem search_cases (h : Succeeded lay orc lMax kMax sched mod) (hk : 0 < kMax) : ∃ c, SolvedModel lay orc lMax kMax mod c ∧
    ∀ st e, ∃ l k flag, l ≤ lMax ∧ k ≤ kMax ∧ tFunc mod st e .none false = .ok ⟨xPath c l k (q0Of st e) 0, l, k, flag⟩ ∧
      findLk (checkCnst mod.tables (q0Of st e)) mod.xbar (lMax + 1) (kMax + 1) = .ok (l, k, flag) ∧
      ((l = 0 ∧ k = 0 ∧ flag = 0 ∧ NeverBinds (valuesAt lay c st e) m.xbar (lMax + 1)) ∨
        (flag = 0 ∧ Consistent (valuesAt lay c st e) m.xbar l k) ∨ (l = 0 ∧ 0 < k ∧ flag ≠ 0)) := by
  obtain ⟨c, hm⟩ := genSys_ok h.perm h.gen
  obtain ⟨M', hS⟩ := hm.eng
  have := h.states
  refine ⟨c, hm, fun st e => ?_⟩
  obtain ⟨l, k, flag, h1, h2, h3, h4⟩ := findLk_cases (xbar := mod.xbar) (checkCnst_reads hS (q0Of st e)) (by omega) (by omega)
  refine ⟨l, k, flag, by omega, by omega, tFunc_find hm st e h1 (by omega) (by omega), h1, ?_⟩
  rw [hm.xbar] at h4
  exact h4

theorem find_of_neverBinds (h : Succeeded lay orc lMax kMax sched mod) {c : Nat → Nat → Cell (z ⊕ ε) p K}
    (hm : SolvedModel lay orc lMax kMax mod c) {st : p ⊕ z → K} {e : ε → K} (hn : NeverBinds (valuesAt lay c st e) m.xbar (lMax + 1)) :
    tFunc mod st e .none false = tFunc mod st e .none true := by
  obtain ⟨M', hS⟩ := hm.eng
  have := h.states
  have hfind : findLk (checkCnst mod.tables (q0Of st e)) mod.xbar (lMax + 1) (kMax + 1) = .ok (0, 0, 0) := by
    unfold findLk
    rcases slackLoop_spec (xbar := mod.xbar) (checkCnst_reads hS (q0Of st e)) (by omega) 0 (by omega) with
      ⟨h1, h2⟩ | ⟨⟨j, h1⟩, j', h2, h3⟩
    · rw [h2]; simp
    · have h4 := hn j h1.2.1
      rw [← hm.xbar] at h4
      exact absurd h4 (not_lt.2 h1.2.2)
  rw [tFunc_find hm st e hfind (Nat.zero_le lMax) (Nat.zero_le kMax), tFunc_linear]
  exact (tFunc_pair hm st e (Nat.zero_le lMax) (Nat.zero_le kMax)).symm

/-- The transition with the constraint reports that the constraint does not bind. -/
def Spec.Slack (mod : Model z ε p o K) (st : p ⊕ z → K) (e : ε → K) : Prop := ∃ r, tFunc mod st e .none false = .ok r ∧ r.k = 0

theorem slack_neverBinds {c : Nat → Nat → Cell (z ⊕ ε) p K} {st : p ⊕ z → K} {e : ε → K}
    (hc : ∃ l k flag, l ≤ lMax ∧ k ≤ kMax ∧ tFunc mod st e .none false = .ok ⟨xPath c l k (q0Of st e) 0, l, k, flag⟩ ∧
      findLk (checkCnst mod.tables (q0Of st e)) mod.xbar (lMax + 1) (kMax + 1) = .ok (l, k, flag) ∧
      ((l = 0 ∧ k = 0 ∧ flag = 0 ∧ NeverBinds (valuesAt lay c st e) m.xbar (lMax + 1)) ∨
        (flag = 0 ∧ Consistent (valuesAt lay c st e) m.xbar l k) ∨ (l = 0 ∧ 0 < k ∧ flag ≠ 0))) (hs : Spec.Slack mod st e) :
    NeverBinds (valuesAt lay c st e) m.xbar (lMax + 1) := by
  obtain ⟨l, k, flag, -, -, h1, -, h2⟩ := hc
  obtain ⟨r, hr, hk⟩ := hs
  rw [h1] at hr
  cases hr
  simp only at hk
  subst hk
  rcases h2 with h2 | ⟨-, h2⟩ | h2
  · exact h2.2.2.2
  · exact absurd h2.binds (by omega)
  · omega

/-! ## The region without binding constraint -/

/-- **C142**: the states and shocks for which the constraint does not bind form a convex set, and the transition is affine there: a mixture of
two of them does not make it bind either, and leads to the mixture of the two new states. -/
theorem C142_slack_convex (h : Succeeded lay orc lMax kMax sched mod) (hk : 0 < kMax) {st st' : p ⊕ z → K} {e e' : ε → K} {r r' : Step z p K}
    (hr : tFunc mod st e .none false = .ok r) (hr' : tFunc mod st' e' .none false = .ok r') (h0 : r.k = 0) (h0' : r'.k = 0)
    {a b : K} (ha : 0 ≤ a) (hb : 0 ≤ b) (hab : a + b = 1) :
    tFunc mod (a • st + b • st') (a • e + b • e') .none false = .ok ⟨a • r.state + b • r'.state, 0, 0, 0⟩ := by
  obtain ⟨c, hm, hc⟩ := search_cases h hk
  have n1 := slack_neverBinds (hc st e) ⟨r, hr, h0⟩
  have n2 := slack_neverBinds (hc st' e') ⟨r', hr', h0'⟩
  have n3 : NeverBinds (valuesAt lay c (a • st + b • st') (a • e + b • e')) m.xbar (lMax + 1) := by
    intro j hj
    rw [valuesAt_mix lay c hab]
    exact mix_lt ha hb hab (n1 j hj) (n2 j hj)
  rw [find_of_neverBinds h hm n1, tFunc_linear_eq h] at hr
  rw [find_of_neverBinds h hm n2, tFunc_linear_eq h] at hr'
  rw [find_of_neverBinds h hm n3, tFunc_linear_eq h]
  cases hr
  cases hr'
  rw [q0Of_mix]
  congr 2
  funext i
  rcases i with i | i <;> simp [mulVec_add, mulVec_smul]

/-- **C142**, smaller disturbances: if the constraint does not bind after some state and shocks, it does not bind after a fraction of them, and the
response is that fraction. -/
theorem C142_slack_shrinks (h : Succeeded lay orc lMax kMax sched mod) (hk : 0 < kMax) (hx : m.xbar < 0) {st : p ⊕ z → K} {e : ε → K}
    {r : Step z p K} (hr : tFunc mod st e .none false = .ok r) (h0 : r.k = 0) {a : K} (ha : 0 ≤ a) (ha1 : a ≤ 1) :
    tFunc mod (a • st) (a • e) .none false = .ok ⟨a • r.state, 0, 0, 0⟩ := by
  obtain ⟨r', hr', hst', hl, hk', -⟩ := C10_steady_state_fixed_point h hx false
  have := C142_slack_convex h hk hr hr' h0 hk' ha (sub_nonneg.2 ha1) (by ring : a + (1 - a) = 1)
  rw [hst'] at this
  simpa using this

/-- **C142**, simulations: if the constraint binds in no period of two simulations, it binds in no period of the mixture, which is the mixture of the
two paths. -/
theorem C142_simulations_mix (h : Succeeded lay orc lMax kMax sched mod) (hk : 0 < kMax) {a b : K} (ha : 0 ≤ a) (hb : 0 ≤ b) (hab : a + b = 1) :
    ∀ (es es' : List (ε → K)) (st st' : p ⊕ z → K) (res res' : SimRes z p K), es.length = es'.length →
      simLoop mod false st es = .ok res → simLoop mod false st' es' = .ok res' → (∀ lk ∈ res.LK, lk.2 = 0) → (∀ lk ∈ res'.LK, lk.2 = 0) →
      simLoop mod false (a • st + b • st') (List.zipWith (fun u v => a • u + b • v) es es') =
        .ok ⟨List.zipWith (fun u v => a • u + b • v) res.X res'.X, List.replicate es.length (0, 0), 0⟩
  | [], [], st, st', res, res', _, h1, h2, _, _ => by
    simp only [simLoop] at h1 h2
    cases h1
    cases h2
    simp [simLoop]
  | [], _ :: _, _, _, _, _, hl, _, _, _, _ => by simp at hl
  | _ :: _, [], _, _, _, _, hl, _, _, _, _ => by simp at hl
  | e :: es, e' :: es', st, st', res, res', hl, h1, h2, k1, k2 => by
    simp only [simLoop] at h1 h2
    cases hr : tFunc mod st e .none false with
    | error err => rw [hr] at h1; cases h1
    | ok r =>
      cases hr' : tFunc mod st' e' .none false with
      | error err => rw [hr'] at h2; cases h2
      | ok r' =>
        rw [hr] at h1
        rw [hr'] at h2
        simp only at h1 h2
        cases hs : simLoop mod false r.state es with
        | error err => rw [hs] at h1; cases h1
        | ok s1 =>
          cases hs' : simLoop mod false r'.state es' with
          | error err => rw [hs'] at h2; cases h2
          | ok s2 =>
            rw [hs] at h1
            rw [hs'] at h2
            cases h1
            cases h2
            simp only at k1 k2
            have hmix := C142_slack_convex h hk hr hr' (k1 _ (List.mem_cons_self ..)) (k2 _ (List.mem_cons_self ..)) ha hb hab
            have ih := C142_simulations_mix h hk ha hb hab es es' r.state r'.state s1 s2 (by simpa using hl) hs hs'
              (fun lk hlk => k1 lk (List.mem_cons_of_mem _ hlk)) (fun lk hlk => k2 lk (List.mem_cons_of_mem _ hlk))
            simp only [List.zipWith_cons_cons, simLoop]
            rw [hmix]
            simp only
            rw [ih]
            simp [List.replicate_succ]

/-! ## Given a spell -/

/-- **C142**, pieces: the transition is affine wherever it reports the same spell: if it reports the same spell at two points and at a point on the line
through them, the new state lies on the line through the two new states, at the same place. -/
theorem C142_piecewise_affine (h : Succeeded lay orc lMax kMax sched mod) (hk : 0 < kMax) {st st' : p ⊕ z → K} {e e' : ε → K}
    {r r' r'' : Step z p K} (hr : tFunc mod st e .none false = .ok r) (hr' : tFunc mod st' e' .none false = .ok r') {a b : K} (hab : a + b = 1)
    (hr'' : tFunc mod (a • st + b • st') (a • e + b • e') .none false = .ok r'') (hlk : (r.l, r.k) = (r''.l, r''.k))
    (hlk' : (r'.l, r'.k) = (r''.l, r''.k)) : r''.state = a • r.state + b • r'.state := by
  obtain ⟨c, hm, hc⟩ := search_cases h hk
  obtain ⟨l, k, flag, -, -, h1, -⟩ := hc st e
  obtain ⟨l', k', flag', -, -, h1', -⟩ := hc st' e'
  obtain ⟨l'', k'', flag'', -, -, h1'', -⟩ := hc (a • st + b • st') (a • e + b • e')
  rw [h1] at hr
  rw [h1'] at hr'
  rw [h1''] at hr''
  cases hr
  cases hr'
  cases hr''
  simp only [Prod.mk.injEq] at hlk hlk'
  obtain ⟨rfl, rfl⟩ := hlk
  obtain ⟨rfl, rfl⟩ := hlk'
  simp only
  rw [q0Of_mix, xPath_mix _ _ _ hab]

/-- **C142**, mixtures of equilibria: if the search finds the same spell for two points, without error, then it finds an equilibrium without error for
every mixture; imposing the spell there gives the mixture of the two new states. -/
theorem C142_mixture_has_equilibrium (h : Succeeded lay orc lMax kMax sched mod) (hk : 0 < kMax) (hL : lMax + 1 ≤ 999) {st st' : p ⊕ z → K}
    {e e' : ε → K} {r r' : Step z p K} (hr : tFunc mod st e .none false = .ok r) (hr' : tFunc mod st' e' .none false = .ok r')
    (hf : r.flag = 0) (hf' : r'.flag = 0) (hlk : (r.l, r.k) = (r'.l, r'.k)) {a b : K} (ha : 0 ≤ a) (hb : 0 ≤ b) (hab : a + b = 1) :
    (∃ r'', tFunc mod (a • st + b • st') (a • e + b • e') .none false = .ok r'' ∧ r''.flag = 0 ∧
      (r''.k = 0 ∨ ¬ LexLt (r.l, r.k) (r''.l, r''.k))) ∧
    tFunc mod (a • st + b • st') (a • e + b • e') (.pair r.l r.k) false = .ok ⟨a • r.state + b • r'.state, r.l, r.k, 0⟩ := by
  obtain ⟨c, hm, hc⟩ := search_cases h hk
  have hz := h.states
  obtain ⟨M', hS⟩ := hm.eng
  obtain ⟨l, k, flag, b1, b2, h1, f1, c1⟩ := hc st e
  obtain ⟨l', k', flag', b1', b2', h1', f1', c1'⟩ := hc st' e'
  rw [h1] at hr
  rw [h1'] at hr'
  cases hr
  cases hr'
  simp only [Prod.mk.injEq] at hf hf' hlk
  obtain ⟨rfl, rfl⟩ := hlk
  subst hf hf'
  constructor
  · obtain ⟨l'', k'', flag'', b1'', b2'', h1'', f1'', c1''⟩ := hc (a • st + b • st') (a • e + b • e')
    refine ⟨_, h1'', ?_⟩
    simp only
    rcases c1 with ⟨rfl, rfl, -, n1⟩ | ⟨-, n1⟩ | ⟨-, -, n1⟩
    · rcases c1' with ⟨-, -, -, n2⟩ | ⟨-, n2⟩ | ⟨-, -, n2⟩
      · have n3 : NeverBinds (valuesAt lay c (a • st + b • st') (a • e + b • e')) m.xbar (lMax + 1) := by
          intro j hj
          rw [valuesAt_mix lay c hab]
          exact mix_lt ha hb hab (n1 j hj) (n2 j hj)
        rw [find_of_neverBinds h hm n3, tFunc_linear_eq h] at h1''
        simp only [Except.ok.injEq, Step.mk.injEq] at h1''
        exact ⟨h1''.2.2.2.symm, .inl h1''.2.2.1.symm⟩
      · exact absurd n2.binds (by omega)
      · exact absurd rfl n2
    · rcases c1' with ⟨-, rfl, -, -⟩ | ⟨-, n2⟩ | ⟨-, -, n2⟩
      · exact absurd n1.binds (by omega)
      · have n3 : Consistent (valuesAt lay c (a • st + b • st') (a • e + b • e')) m.xbar l k := by
          refine ⟨n1.binds, fun hl => ?_, fun hl => ?_, ?_, ?_, fun hl => ?_⟩ <;> rw [valuesAt_mix lay c hab]
          · exact mix_le ha hb hab (n1.start hl) (n2.start hl)
          · exact mix_le ha hb hab (n1.before hl) (n2.before hl)
          · exact mix_le ha hb hab n1.exit n2.exit
          · exact mix_ge ha hb hab n1.first n2.first
          · exact mix_ge ha hb hab (n1.last hl) (n2.last hl)
        have hsp := findLk_spec (xbar := mod.xbar) (checkCnst_reads hS (q0Of (a • st + b • st') (a • e + b • e'))) (by omega) hL (by omega)
        rw [f1'', hm.xbar] at hsp
        rcases hsp with ⟨-, g⟩ | ⟨-, l0, k0, g1, g⟩ | ⟨-, g, -⟩
        · cases g
          exact ⟨rfl, .inl rfl⟩
        · cases g
          exact ⟨rfl, .inr (g1.2.2.2 l k (by omega) (by omega) n3)⟩
        · exact absurd n3 (g l k (by omega) (by omega))
      · exact absurd rfl n2
    · exact absurd rfl n1
  · rw [tFunc_pair hm _ _ b1 b2, q0Of_mix, xPath_mix _ _ _ hab]

/-! ## Examples -/

/-- The first example binds for one period if next period's `y` without constraint lies between `-2` and `-1`. -/
theorem Ex1.binding_region (lMax kMax : Nat) (hk : 1 ≤ kMax) (hL : lMax + 1 ≤ 999) {sched : Nat → List Nat}
    {mod : Model (Fin 1) (Fin 1) (Fin 1) (Fin 1) Rat} (h : Succeeded Ex1.lay Ex1.orc lMax kMax sched mod) (st : Fin 1 ⊕ Fin 1 → Rat)
    (e : Fin 1 → Rat) (w : Rat) (hw : w = 1/2 * st (.inr 0) + 2/3 * e 0) (h1 : -2 ≤ w) (h2 : w ≤ -1) :
    ∃ r, tFunc mod st e .none false = .ok r ∧ r.l = 0 ∧ r.k = 1 ∧ r.flag = 0 ∧ r.state (.inl 0) = -1 ∧ r.state (.inr 0) = w := by
  obtain ⟨c, hm⟩ := genSys_ok h.perm h.gen
  obtain ⟨M', hS⟩ := hm.eng
  obtain ⟨c0, c1⟩ := Ex1.cells hk hm
  have hxb : mod.xbar = -1 := hm.xbar
  set q0 : Ex1.Q → Rat := q0Of st e with hq0
  have hl0 : Ex1.lam *ᵥ q0 = fun j => match j with | .inl _ => w | .inr _ => 0 := by
    ext i
    rcases i with i | i <;> simp [mulVec, dotProduct, Fintype.sum_sum_type, Ex1.lam, hq0, q0Of, hw]
  have hl1 : Ex1.lam *ᵥ (Ex1.lam *ᵥ q0) = fun j => match j with | .inl _ => w / 2 | .inr _ => 0 := by
    rw [hl0]
    ext i
    rcases i with i | i <;> simp [mulVec, dotProduct, Fintype.sum_sum_type, Ex1.lam]
    ring
  rw [hl0] at hl1
  have v00 : pathValue (ff Ex1.lay) c q0 0 0 0 = w := by
    simp only [pathValue, Ex1.fp1_eq, Ex1.fq0_eq, Ex1.fq1_eq, zero_dotProduct, qPath, locCell, lLoc, kLoc, Nat.sub_self, Nat.add_zero,
      Nat.min_self, c0, hl0, add_zero]
    simp [dotProduct, Fintype.sum_sum_type]
  have v01 : pathValue (ff Ex1.lay) c q0 0 1 0 = w := by
    simp only [pathValue, Ex1.fp1_eq, Ex1.fq0_eq, Ex1.fq1_eq, zero_dotProduct, qPath, locCell, lLoc, kLoc, Nat.sub_self, Nat.add_zero,
      Nat.sub_zero, Nat.min_self, c1, Ex1.cell01, hl0, add_zero]
    simp [dotProduct, Fintype.sum_sum_type]
  have v41 : pathValue (ff Ex1.lay) c q0 0 1 1 = w / 2 := by
    simp only [pathValue, Ex1.fp1_eq, Ex1.fq0_eq, Ex1.fq1_eq, zero_dotProduct, qPath, locCell, lLoc, kLoc, Nat.sub_self, Nat.add_zero,
      Nat.sub_zero, Nat.zero_sub, Nat.min_self, c0, c1, Ex1.cell01, hl0, hl1, add_zero, Nat.zero_le, Nat.min_eq_right]
    simp [dotProduct, Fintype.sum_sum_type]
  have hcons : Consistent (fun i l k => pathValue (ff Ex1.lay) c q0 l k (slotPeriod l k i)) mod.xbar 0 1 := by
    refine ⟨le_rfl, by omega, by omega, ?_, ?_, by omega⟩
    · simp only [slotPeriod, Nat.zero_add, v41, hxb]; linarith
    · simp only [slotPeriod, v01, hxb]; exact h2
  rcases findLk_spec (xbar := mod.xbar) (checkCnst_reads hS q0) (by omega) hL (by omega) with h1 | ⟨_, l, k, h1, h2⟩ | ⟨_, h1, _⟩
  · have := h1.1 0 (by omega)
    simp only [slotPeriod, v00, hxb] at this
    exact absurd this (not_lt.2 h2)
  · obtain ⟨g1, g2, g3, g4⟩ := h1
    have hlk : l = 0 ∧ k = 1 := by
      have := g4 0 1 (by omega) (by omega) hcons
      have hb := g3.binds
      unfold LexLt at this
      simp only at this
      omega
    obtain ⟨rfl, rfl⟩ := hlk
    refine ⟨_, tFunc_find hm st e h2 (by omega) (by omega), rfl, rfl, rfl, ?_, ?_⟩
    · simp only [xPath_zero, c1, Sum.elim_inl, Ex1.cell01, zero_mulVec, zero_add]
    · simp only [xPath_zero, c1, Sum.elim_inr, Ex1.cell01, add_zero, ← hq0, hl0]
  · exact absurd hcons (h1 0 1 (by omega) (by omega))

/-- The hypotheses of C142 are met: in the first example the constraint is slack after a small positive and a small negative shock, and binds for one
period after the shocks `-9/4`, `-21/8` and `-3`, of which the second is the average of the others. -/
theorem C142_hypotheses_met : ∃ mod, Succeeded Ex1.lay Ex1.orc 3 1 (serial 1) mod ∧
    (∃ δ > 0, Spec.Slack mod 0 (fun _ => δ) ∧ Spec.Slack mod 0 (fun _ => -δ)) ∧
    ∃ r r' r'', tFunc mod 0 (fun _ => -9/4) .none false = .ok r ∧ tFunc mod 0 (fun _ => -3) .none false = .ok r' ∧
      tFunc mod ((1/2 : Rat) • 0 + (1/2 : Rat) • 0) ((1/2 : Rat) • (fun _ => -9/4) + (1/2 : Rat) • fun _ => -3) .none false = .ok r'' ∧
      (r.l, r.k) = (0, 1) ∧ (r'.l, r'.k) = (0, 1) ∧ (r''.l, r''.k) = (0, 1) ∧ r.flag = 0 ∧ r'.flag = 0 ∧ r.state ≠ r'.state := by
  obtain ⟨mod, h⟩ := ex1_succeeds 3 1
  have hx : (Ex1.inpB (-1)).xbar < 0 := by show (-1 : Rat) < 0; norm_num
  obtain ⟨δ, hδ, hd⟩ := C131_small_disturbances_linear h hx
  refine ⟨mod, h, ⟨δ, hδ, ?_, ?_⟩, ?_⟩
  · refine ⟨_, (hd 0 (fun _ => δ) (fun i => by simp [hδ.le]) (fun i => by simp [abs_of_pos hδ])).trans (tFunc_linear_eq h _ _), rfl⟩
  · refine ⟨_, (hd 0 (fun _ => -δ) (fun i => by simp [hδ.le]) (fun i => by simp [abs_of_pos hδ])).trans (tFunc_linear_eq h _ _), rfl⟩
  · obtain ⟨r, a1, a2, a3, a4, -, a5⟩ := Ex1.binding_region 3 1 le_rfl (by omega) h 0 (fun _ => -9/4) (-3/2) (by norm_num) (by norm_num) (by norm_num)
    obtain ⟨r', b1, b2, b3, b4, -, b5⟩ := Ex1.binding_region 3 1 le_rfl (by omega) h 0 (fun _ => -3) (-2) (by norm_num) (by norm_num) (by norm_num)
    obtain ⟨r'', c1, c2, c3, -⟩ := Ex1.binding_region 3 1 le_rfl (by omega) h ((1/2 : Rat) • 0 + (1/2 : Rat) • 0)
      ((1/2 : Rat) • (fun _ => -9/4) + (1/2 : Rat) • fun _ => -3) (-7/4) (by simp; norm_num) (by norm_num) (by norm_num)
    refine ⟨r, r', r'', a1, b1, c1, by rw [a2, a3], by rw [b2, b3], by rw [c2, c3], a4, b4, fun hne => ?_⟩
    rw [hne, b5] at a5
    norm_num at a5

end Pydsge
