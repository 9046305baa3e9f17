import Verif.Examples.Ex6
import Verif.Props.Stability

/-! # The model of `Ex6` far below the bound: it explodes, whatever the size of the tables -/

set_option autoImplicit false
set_option linter.unusedSimpArgs false
set_option linter.unusedSectionVars false

namespace Pydsge.Ex6

open Matrix Pydsge.Engine Pydsge.Spec Pydsge.Tools Pydsge.GenSys

/-- `y` and `w` are `a (y(-1) + e) + b`, `r` is `ar (y(-1) + e) + br` -/
structure Rule (c : Cell Q Bool Rat) (a b ar br : Rat) : Prop where
  q : ∀ j, c.qmat (.inl 0) j = a
  qt : c.qterm (.inl 0) = b
  w : c.pmat false (.inl 0) = a
  wt : c.pterm false = b
  r : c.pmat true (.inl 0) = ar
  rt : c.pterm true = br

theorem step_rule (l : Nat) {c c' : Cell Q Bool Rat} {a b ar br : Rat} (h : Rule c a b ar br) (ha : 0 ≤ a) (ha2 : a ≤ 2) (har : 0 ≤ ar)
    (hs : stepCell sysN l c = .ok c') :
    ∃ a' b', a' * (1 + ar - a / 4) = 1 ∧ b' = a' * (b / 4 - br) ∧ (l ≠ 0 → Rule c' a' b' a' b') ∧ (l = 0 → Rule c' a' b' 0 (-1)) := by
  have hinv : Inv c := ⟨by rw [h.w]; exact ha, by rw [h.w]; exact ha2, by rw [h.r]; exact har⟩
  have hpos : 0 < 1 + ar - a / 4 := by linarith
  have hne := hpos.ne'
  unfold stepCell getLam at hs
  dsimp only at hs
  rw [inv_ok l c hinv] at hs
  simp only [(lower_blocks l).2.1, (lower_blocks l).2.2, Except.ok.injEq, getOmg, h.w, h.r] at hs
  refine ⟨(1 + ar - a / 4)⁻¹, (1 + ar - a / 4)⁻¹ * (b / 4 - br), inv_mul_cancel₀ hne, rfl, fun hl => ?_, fun hl => ?_⟩
  all_goals
    have hd : (1 + (ar - 4⁻¹ * a)) = 1 + ar - a / 4 := by ring
    simp only [hl, ne_eq, not_false_eq_true, not_true_eq_false, if_true, if_false] at hs
    rw [← hs]
    constructor <;> (try intro j; rcases j with j | j) <;>
      simp [Matrix.mul_apply, Fintype.sum_sum_type, invM, toBlocks₁₁, toBlocks₁₂, toBlocks₂₁, toBlocks₂₂, Tn, Sn, Vm, mulVec, dotProduct, sysN, hn, h.wt, h.rt, hd] <;>
      field_simp
    all_goals (rw [← neg_div]; congr 1; ring)

/-- bounds for all cells -/
def G (c : Cell Q Bool Rat) : Prop := ∃ a b ar br, Rule c a b ar br ∧ 2/5 ≤ a ∧ a ≤ 2 ∧ |b| ≤ 4 ∧ |b| ≤ 3 * a ∧
  ((ar = a ∧ br = b) ∨ (ar = 0 ∧ br = -1))

/-- bounds for the cells `(0,k)` with `k ≥ 2` -/
def G2 (c : Cell Q Bool Rat) : Prop := ∃ a b, Rule c a b 0 (-1) ∧ 6/5 ≤ a ∧ a ≤ 2 ∧ 0 ≤ b ∧ b ≤ 2 * a

theorem step_G (l : Nat) {c c' : Cell Q Bool Rat} (h : G c) (hs : stepCell sysN l c = .ok c') : G c' := by
  obtain ⟨a, b, ar, br, hr, h1, h2, h3, h4, h5⟩ := h
  have har : 0 ≤ ar := by rcases h5 with ⟨h5, _⟩ | ⟨h5, _⟩ <;> linarith
  obtain ⟨a', b', e1, e2, g1, g2⟩ := step_rule l hr (by linarith) h2 har hs
  obtain ⟨h3l, h3u⟩ := abs_le.1 h3
  have key : 2/5 ≤ a' ∧ a' ≤ 2 ∧ |b'| ≤ 4 ∧ |b'| ≤ 3 * a' := by
    rcases h5 with ⟨rfl, rfl⟩ | ⟨rfl, rfl⟩
    · have ha : a' = 1 / (1 + ar - ar / 4) := by
        rw [eq_div_iff (by linarith)]; exact e1
      have l1 : 2/5 ≤ a' := by rw [ha, le_div_iff₀ (by linarith)]; linarith
      have l2 : a' ≤ 1 := by rw [ha, div_le_iff₀ (by linarith)]; linarith
      have l3 : |b'| ≤ 3 * a' := by
        rw [e2, abs_mul, abs_of_nonneg (by linarith : (0:Rat) ≤ a'), mul_comm]
        refine mul_le_mul_of_nonneg_right (abs_le.2 ⟨by linarith, by linarith⟩) (by linarith)
      exact ⟨l1, by linarith, by linarith, l3⟩
    · have ha : a' = 1 / (1 + 0 - a / 4) := by
        rw [eq_div_iff (by linarith)]; exact e1
      have l1 : 2/5 ≤ a' := by rw [ha, le_div_iff₀ (by linarith)]; linarith
      have l2 : a' ≤ 2 := by rw [ha, div_le_iff₀ (by linarith)]; linarith
      have l3 : |b'| ≤ 2 * a' := by
        rw [e2, abs_mul, abs_of_nonneg (by linarith : (0:Rat) ≤ a'), mul_comm]
        refine mul_le_mul_of_nonneg_right (abs_le.2 ⟨by linarith, by linarith⟩) (by linarith)
      exact ⟨l1, by linarith, by linarith, by linarith⟩
  by_cases hl : l = 0
  · exact ⟨a', b', 0, -1, g2 hl, key.1, key.2.1, key.2.2.1, key.2.2.2, .inr ⟨rfl, rfl⟩⟩
  · exact ⟨a', b', a', b', g1 hl, key.1, key.2.1, key.2.2.1, key.2.2.2, .inl ⟨rfl, rfl⟩⟩

variable {lMax kMax : Nat} {sched : Nat → List Nat} {mod : Model (Fin 1) (Fin 1) Bool (Fin 1) Rat} {c : Nat → Nat → Cell Q Bool Rat}

theorem cells (h : SolvedModel lay orc lMax kMax mod c) :
    (∀ l k, l ≤ lMax → k ≤ kMax → G (c l k)) ∧ Rule (c 0 0) (2/3) 0 (2/3) 0 ∧ (1 ≤ kMax → Rule (c 0 1) (2/3) 0 0 (-1)) ∧
      ∀ k, 2 ≤ k → k ≤ kMax → G2 (c 0 k) := by
  obtain ⟨M', hS⟩ := h.eng
  have hM : M' = sysN := by
    have := hS.norm
    rw [norm_ok] at this
    simpa using this.symm
  have hkl := h.kl
  simp only [orc, Except.ok.injEq, Prod.mk.injEq] at hkl
  have h0 := hS.complete.start
  rw [← hkl.1, ← hkl.2] at h0
  have r0 : Rule (c 0 0) (2/3) 0 (2/3) 0 := by
    rw [h0]
    constructor <;> simp [omg, lam]
  have hstep0 : ∀ k, k + 1 ≤ kMax → stepCell sysN 0 (c 0 k) = .ok (c 0 (k + 1)) := by
    intro k hk
    have h1 := hS.complete.step 0 (k+1) (by omega) (by omega) (by left; omega)
    rw [lastIdx_zero, hM] at h1
    exact h1
  have r1 : 1 ≤ kMax → Rule (c 0 1) (2/3) 0 0 (-1) := by
    intro hk
    obtain ⟨a', b', e1, e2, _, g⟩ := step_rule 0 r0 (by norm_num) (by norm_num) (by norm_num) (hstep0 0 hk)
    have ha : a' = 2/3 := by linarith
    have hb : b' = 0 := by rw [e2]; norm_num
    rw [ha, hb] at g
    exact g rfl
  have hG0 : G (c 0 0) := ⟨_, _, _, _, r0, by norm_num, by norm_num, by norm_num, by norm_num, .inl ⟨rfl, rfl⟩⟩
  have row0 : ∀ k, k ≤ kMax → G (c 0 k) := by
    intro k
    induction k with
    | zero => exact fun _ => hG0
    | succ k ih => exact fun hk => step_G 0 (ih (by omega)) (hstep0 k hk)
  refine ⟨fun l => ?_, r0, r1, fun k hk => ?_⟩
  · induction l with
    | zero => exact fun k _ hk => row0 k hk
    | succ l ih =>
      intro k hl hk
      have h1 := hS.complete.step (l+1) k (by omega) (by omega) (by right; omega)
      rw [lastIdx_pos (by omega), hM] at h1
      exact step_G (l+1) (ih k (by omega) hk) h1
  · induction k, hk using Nat.le_induction with
    | base =>
      intro hk
      obtain ⟨a', b', e1, e2, _, g⟩ := step_rule 0 (r1 (by omega)) (by norm_num) (by norm_num) (by norm_num) (hstep0 1 hk)
      have ha : a' = 6/5 := by linarith
      exact ⟨a', b', g rfl, by linarith, by linarith, by rw [e2, ha]; norm_num, by rw [e2, ha]; norm_num⟩
    | succ k hk ih =>
      intro hk'
      obtain ⟨a, b, hr, h1, h2, h3, h4⟩ := ih (by omega)
      obtain ⟨a', b', e1, e2, _, g⟩ := step_rule 0 hr (by linarith) h2 le_rfl (hstep0 k hk')
      have ha : a' = 1 / (1 + 0 - a / 4) := by
        rw [eq_div_iff (by linarith)]; exact e1
      have l1 : 6/5 ≤ a' := by rw [ha, le_div_iff₀ (by linarith)]; linarith
      have l2 : a' ≤ 2 := by rw [ha, div_le_iff₀ (by linarith)]; linarith
      refine ⟨a', b', g rfl, l1, l2, ?_, ?_⟩
      · rw [e2]; exact mul_nonneg (by linarith) (by linarith)
      · rw [e2, mul_comm]; exact mul_le_mul_of_nonneg_right (by linarith) (by linarith)

theorem rule_y (hm : SolvedModel lay orc lMax kMax mod c) {l k : Nat} (hl : l ≤ lMax) (hk : k ≤ kMax) {a b ar br : Rat}
    (hr : Rule (c l k) a b ar br) (st : Bool ⊕ Fin 1 → Rat) (eps : Fin 1 → Rat) {r : Step (Fin 1) Bool Rat}
    (h : tFunc mod st eps (.pair l k) false = .ok r) : r.state (.inr 0) = a * (st (.inr 0) + eps 0) + b := by
  rw [tFunc_pair hm st eps hl hk, xPath_zero] at h
  cases h
  simp [mulVec, dotProduct, Fintype.sum_sum_type, hr.q, hr.qt, q0Of]
  ring

theorem notional_y (xlag : Fin 3 → Rat) (eps : Fin 1 → Rat) (X : Nat → Bool ⊕ Fin 1 → Rat) (s : Nat) :
    notional decl xlag eps (Spec.declared lay X) s = X s (.inr 0) := by
  simp [notional, decl, Spec.declared, dotProduct, Fin.sum_univ_succ]
  exact lay.val_z _ 0

/-- Far below the bound, nothing but a spell of length `k_max` can be found, and `y` falls further. -/
theorem explodes (h : Succeeded lay orc lMax kMax sched mod) (hk2 : 2 ≤ kMax) (hL : lMax + 1 ≤ 999) (st : Bool ⊕ Fin 1 → Rat)
    (eps : Fin 1 → Rat) (hlow : st (.inr 0) + eps 0 ≤ -13) :
    ∃ r, tFunc mod st eps .none false = .ok r ∧ r.l = 0 ∧ r.k = kMax ∧ r.flag = 2 ∧
      r.state (.inr 0) + 12 ≤ 6/5 * (st (.inr 0) + eps 0 + 12) := by
  obtain ⟨c, hm⟩ := genSys_ok h.perm h.gen
  obtain ⟨M', hS⟩ := hm.eng
  have hz := h.states
  obtain ⟨cG, c00, c01, c0k⟩ := cells hm
  have hxb : mod.xbar = -1 := hm.xbar
  have hv : ∀ {l k}, l ≤ lMax → k ≤ kMax → ∀ s, pathValue (ff lay) c (q0Of st eps) l k s = xPath c l k (q0Of st eps) s (.inr 0) := by
    intro l k hl hk s
    rw [pathValue_notional h hm rfl rfl hl hk st eps s, notional_y]
  have hX : ∀ {l k}, l ≤ lMax → k ≤ kMax → ExpectedPath mod l k st eps (xPath c l k (q0Of st eps)) := fun hl hk =>
    (expectedPath_iff hm h.orc h.noTiny h.square h.states (noLagFwd_of_rc rfl) hl hk st eps _).2 fun _ => rfl
  have y0 : ∀ {l k}, l ≤ lMax → k ≤ kMax → xPath c l k (q0Of st eps) 0 (.inr 0) < -1 := by
    intro l k hl hk
    obtain ⟨r, h1, h2⟩ := hX hl hk 0
    obtain ⟨a, b, ar, br, hr, g1, g2, g3, g4, _⟩ := cG l k hl hk
    rw [elapsed_zero] at h1
    rw [h2, rule_y hm hl hk hr _ _ h1]
    simp only [prev, shockAt]
    have := (abs_le.1 g4).2
    nlinarith
  -- along a path with an immediate spell
  have yk : ∀ k, 1 ≤ k → k ≤ kMax → xPath c 0 k (q0Of st eps) k (.inr 0) < -1 := by
    intro k hk1 hk
    generalize hXX : xPath c 0 k (q0Of st eps) = X
    have hE := hX (Nat.zero_le lMax) hk
    rw [hXX] at hE
    have early : ∀ s, s + 1 < k → X s (.inr 0) ≤ -13 := by
      intro s
      induction s with
      | zero =>
        intro hs
        obtain ⟨r, h1, h2⟩ := hE 0
        rw [elapsed_zero] at h1
        obtain ⟨a, b, hr, g1, g2, g3, g4⟩ := c0k k (by omega) hk
        rw [h2, rule_y hm (Nat.zero_le _) hk hr _ _ h1]
        simp only [prev, shockAt]
        nlinarith
      | succ s ih =>
        intro hs
        have := ih (by omega)
        obtain ⟨r, h1, h2⟩ := hE (s + 1)
        have he : elapsed 0 k (s + 1) = (0, k - (s + 1)) := by
          unfold elapsed
          rw [if_neg (by omega)]
          simp
        rw [he] at h1
        obtain ⟨a, b, hr, g1, g2, g3, g4⟩ := c0k (k - (s + 1)) (by omega) (by omega)
        rw [h2, rule_y hm (Nat.zero_le _) (by omega) hr _ _ h1]
        simp only [prev, shockAt, Pi.zero_apply]
        nlinarith
    have last : X (k - 1) (.inr 0) ≤ -26/3 := by
      obtain ⟨r, h1, h2⟩ := hE (k - 1)
      by_cases h1k : k = 1
      · subst h1k
        simp only [Nat.sub_self] at h1 h2 ⊢
        rw [elapsed_zero] at h1
        rw [h2, rule_y hm (Nat.zero_le _) hk (c01 hk) _ _ h1]
        simp only [prev, shockAt]
        linarith
      · obtain ⟨j, rfl⟩ : ∃ j, k = j + 2 := ⟨k - 2, by omega⟩
        simp only [Nat.reduceSubDiff, show j + 2 - 1 = j + 1 by omega] at h1 h2 ⊢
        have he : elapsed 0 (j + 2) (j + 1) = (0, 1) := by
          unfold elapsed
          rw [if_neg (by omega)]
          simp
        rw [he] at h1
        rw [h2, rule_y hm (Nat.zero_le _) (by omega) (c01 (by omega)) _ _ h1]
        have := early j (by omega)
        simp only [prev, shockAt, Pi.zero_apply]
        linarith
    obtain ⟨j, rfl⟩ : ∃ j, k = j + 1 := ⟨k - 1, by omega⟩
    obtain ⟨r, h1, h2⟩ := hE (j + 1)
    have he : elapsed 0 (j + 1) (j + 1) = (0, 0) := by
      unfold elapsed
      rw [if_neg (by omega)]
      simp
    rw [he] at h1
    rw [h2, rule_y hm (Nat.zero_le _) (Nat.zero_le _) c00 _ _ h1]
    simp only [prev, shockAt, Pi.zero_apply]
    simp only [Nat.add_sub_cancel] at last
    linarith
  obtain ⟨k', hk', hfind⟩ : ∃ k', k' = kMax ∧ findLk (checkCnst mod.tables (q0Of st eps)) mod.xbar (lMax + 1) (kMax + 1) = .ok (0, k', 2) := by
    rcases findLk_spec (xbar := mod.xbar) (checkCnst_reads hS (q0Of st eps)) (by omega) hL (by omega) with
      ⟨h1, _⟩ | ⟨_, l, k, h1, _⟩ | ⟨_, _, k, flag, h1, h2, h3, h4⟩
    · exfalso
      have := h1 0 (by omega)
      simp only [slotPeriod] at this
      rw [hv (Nat.zero_le _) (Nat.zero_le _), hxb] at this
      exact absurd this (not_lt.2 (y0 (Nat.zero_le _) (Nat.zero_le _)).le)
    · exfalso
      obtain ⟨hl, hk, hc, _⟩ := h1
      by_cases hl0 : l = 0
      · subst hl0
        have := hc.exit
        simp only [slotPeriod, Nat.zero_add] at this
        rw [hv (Nat.zero_le _) (by omega), hxb] at this
        exact absurd (yk k hc.binds (by omega)) (not_lt.2 this)
      · have := hc.start (by omega)
        simp only [slotPeriod] at this
        rw [hv (by omega) (by omega), hxb] at this
        exact absurd (y0 (by omega) (by omega)) (not_lt.2 this)
    · rcases h3 with ⟨_, h3⟩ | ⟨rfl, h3⟩
      · exfalso
        simp only [slotPeriod, Nat.zero_add] at h3
        rw [hv (Nat.zero_le _) (by omega), hxb] at h3
        exact absurd h3 (not_lt.2 (yk k h1 (by omega)).le)
      · exact ⟨k, by omega, h4⟩
  subst hk'
  have hr := tFunc_find hm st eps hfind (Nat.zero_le _) le_rfl
  refine ⟨_, hr, rfl, rfl, rfl, ?_⟩
  obtain ⟨a, b, hrule, g1, g2, g3, g4⟩ := c0k k' hk2 le_rfl
  have := rule_y hm (Nat.zero_le _) le_rfl hrule st eps (tFunc_pair hm st eps (Nat.zero_le _) le_rfl)
  simp only at this ⊢
  rw [this]
  nlinarith

/-- Without the constraint the model is stable. -/
theorem stable (h : Succeeded lay orc lMax kMax sched mod) : Spec.LinearStable mod := by
  intro st X hX
  obtain ⟨c, hm⟩ := genSys_ok h.perm h.gen
  have hkl := hm.kl
  simp only [orc, Except.ok.injEq, Prod.mk.injEq] at hkl
  have hs0 : ∀ s, shockAt (0 : Fin 1 → Rat) s = 0 := fun s => by cases s <;> rfl
  have hstep : ∀ s i, X s i = 2/3 * prev st X s (.inr 0) := by
    intro s i
    obtain ⟨r, h1, h2⟩ := hX s
    rw [tFunc_linear_eq h, hs0, ← hkl.1, ← hkl.2] at h1
    cases h1
    rw [h2]
    rcases i with (_ | _) | i <;> simp [mulVec, dotProduct, Fintype.sum_sum_type, q0Of, omg, lam]
  refine diesOut_of_geometric (C := |st (.inr 0)|) (q := 2/3) (by norm_num) (by norm_num) fun s => ?_
  induction s with
  | zero =>
    intro i
    rw [hstep, abs_mul, abs_of_pos (by norm_num : (0:Rat) < 2/3), pow_zero, mul_one]
    have := abs_nonneg (st (.inr 0))
    show 2/3 * |st (.inr 0)| ≤ _
    linarith
  | succ s ih =>
    intro i
    rw [hstep, abs_mul, abs_of_pos (by norm_num : (0:Rat) < 2/3), pow_succ]
    have := ih (.inr 0)
    show 2/3 * |X s (.inr 0)| ≤ _
    linarith

end Pydsge.Ex6
