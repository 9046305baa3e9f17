import Verif.Props.Continuity
import Verif.Examples.Ex10

/-!
# C153: an example with a jump, and an example without
-/

set_option autoImplicit false
set_option linter.unusedSectionVars false
set_option linter.unusedSimpArgs false

namespace Pydsge

open Matrix Pydsge.Engine Pydsge.Spec Pydsge.Tools Pydsge.GenSys

namespace Ex10

variable {lMax kMax : Nat} {sched : Nat → List Nat} {mod : Model (Fin 1) (Fin 1) (Fin 1) (Fin 1) Rat} {c : Nat → Nat → Cell Q (Fin 1) Rat}

theorem cells_lin (h : Succeeded lay orc lMax kMax sched mod) (hm : SolvedModel lay orc lMax kMax mod c) {l : Nat} (hl : l ≤ lMax) :
    c l 0 = ⟨omg, 0, lam, 0⟩ := by
  obtain ⟨M', hS⟩ := hm.eng
  have hkl := hm.kl
  simp only [orc, Except.ok.injEq, Prod.mk.injEq] at hkl
  have := cells_l0 hS (sysOf_T12 h.orc).1 (h.orc.klein _ _ hm.kl) hl
  rw [← hkl.1, ← hkl.2] at this
  exact this

/-- The path without a spell. -/
theorem slack_path (h : Succeeded lay orc lMax kMax sched mod) (hm : SolvedModel lay orc lMax kMax mod c) {j : Nat} (hj : j ≤ lMax)
    (q0 : Q → Rat) (s : Nat) : qPath c j 0 q0 (s + 1) = lam *ᵥ qPath c j 0 q0 s := by
  have hl : lLoc j s ≤ lMax := by unfold lLoc; omega
  have hk : kLoc j 0 s = 0 := by unfold kLoc; omega
  simp only [qPath, locCell, hk, cells_lin h hm hl, add_zero]

theorem lam_mul (x : Q → Rat) : lam *ᵥ x = fun i => match i with
    | .inl _ => -3/4 * x (.inl 0) - 3 * x (.inr 0)
    | .inr _ => 0 := by
  funext i
  rcases i with i | i <;> simp [mulVec, dotProduct, Fintype.sum_sum_type, lam]
  ring

theorem slack_shock (h : Succeeded lay orc lMax kMax sched mod) (hm : SolvedModel lay orc lMax kMax mod c) {j : Nat} (hj : j ≤ lMax)
    (q0 : Q → Rat) (s : Nat) : qPath c j 0 q0 (s + 1) (.inr 0) = 0 := by
  rw [slack_path h hm hj, lam_mul]

theorem slack_next (h : Succeeded lay orc lMax kMax sched mod) (hm : SolvedModel lay orc lMax kMax mod c) {j : Nat} (hj : j ≤ lMax)
    (q0 : Q → Rat) (s : Nat) : qPath c j 0 q0 (s + 2) (.inl 0) = -3/4 * qPath c j 0 q0 (s + 1) (.inl 0) := by
  rw [slack_path h hm hj, lam_mul, slack_shock h hm hj]
  ring

theorem value_eq (q0 : Q → Rat) (l k s : Nat) : pathValue (ff lay) c q0 l k s = qPath c l k q0 (s + 1) (.inl 0) := by
  simp only [pathValue, fp1_eq, fq0_eq, fq1_eq, zero_dotProduct]
  simp [dotProduct, Fintype.sum_sum_type]

/-- `1/4 y(-1) + e` between `-4/9` and `1/3`: the constraint is slack. -/
theorem slack_run (h : Succeeded lay orc lMax kMax sched mod) (st : Fin 1 ⊕ Fin 1 → Rat) (e : Fin 1 → Rat) (s : Rat)
    (hs : s = 1/4 * st (.inr 0) + e 0) (h1 : -4/9 < s) (h2 : s < 1/3) :
    ∃ r, tFunc mod st e .none false = .ok r ∧ r.flag = 0 ∧ r.state (.inr 0) = -3 * s := by
  obtain ⟨c, hm⟩ := genSys_ok h.perm h.gen
  have hkl := hm.kl
  simp only [orc, Except.ok.injEq, Prod.mk.injEq] at hkl
  have h0 : (lam *ᵥ q0Of st e) (.inl 0) = -3 * s := by
    rw [lam_mul]
    simp only [q0Of, Sum.elim_inl, Sum.elim_inr, hs]
    ring
  have hn : NeverBinds (valuesAt lay c st e) inp'.xbar (lMax + 1) := by
    intro j hj
    have hj : j ≤ lMax := by omega
    have hx : inp'.xbar = -1 := rfl
    have : ∀ t, -1 < qPath c j 0 (q0Of st e) (t + 1) (.inl 0) ∧ qPath c j 0 (q0Of st e) (t + 1) (.inl 0) < 4/3 := by
      intro t
      induction t with
      | zero =>
        rw [slack_path h hm hj]
        simp only [qPath]
        rw [h0]
        constructor <;> linarith
      | succ t ih =>
        rw [slack_next h hm hj]
        constructor <;> linarith [ih.1, ih.2]
    rw [hx]
    simp only [valuesAt, value_eq, slotPeriod]
    exact (this j).1
  rw [find_of_neverBinds h hm hn, tFunc_linear_eq h]
  refine ⟨_, rfl, rfl, ?_⟩
  simp only [Sum.elim_inr, ← hkl.2, h0]

/-- `1/4 y(-1) + e` at most `-4/9`: the constraint binds for one period. -/
theorem binding_run (hl : 1 ≤ lMax) (hL : lMax + 1 ≤ 999) (hk : 1 ≤ kMax) (h : Succeeded lay orc lMax kMax sched mod)
    (st : Fin 1 ⊕ Fin 1 → Rat) (e : Fin 1 → Rat) (s : Rat)
    (hs : s = 1/4 * st (.inr 0) + e 0) (h1 : s ≤ -4/9) :
    ∃ r, tFunc mod st e .none false = .ok r ∧ r.flag = 0 ∧ r.state (.inr 0) = s - 4/3 := by
  obtain ⟨c, hm⟩ := genSys_ok h.perm h.gen
  obtain ⟨M', hS⟩ := hm.eng
  obtain ⟨c0, c1⟩ := cells hk hm
  have hxb : mod.xbar = -1 := hm.xbar
  have h0 : (lam *ᵥ q0Of st e) (.inl 0) = -3 * s := by
    rw [lam_mul]
    simp only [q0Of, Sum.elim_inl, Sum.elim_inr, hs]
    ring
  have hc1 : cell01.qmat *ᵥ q0Of st e + cell01.qterm = fun i => match i with
      | .inl _ => s - 4/3
      | .inr _ => 0 := by
    funext i
    rcases i with i | i <;> simp [mulVec, dotProduct, Fintype.sum_sum_type, cell01, q0Of, hs, Subsingleton.elim i 0]
    ring
  have v01 : qPath c 0 1 (q0Of st e) 1 = fun i => match i with
      | .inl _ => s - 4/3
      | .inr _ => 0 := by
    have e1 : locCell c 0 1 0 = cell01 := c1
    rw [qPath, e1]
    exact hc1
  have v41 : qPath c 0 1 (q0Of st e) 2 (.inl 0) = -3/4 * (s - 4/3) := by
    have e1 : locCell c 0 1 1 = ⟨omg, 0, lam, 0⟩ := c0
    rw [qPath, v01, e1, add_zero, lam_mul]
    ring
  have hcons : Consistent (fun i l k => pathValue (ff lay) c (q0Of st e) l k (slotPeriod l k i)) mod.xbar 0 1 := by
    refine ⟨le_rfl, by omega, by omega, ?_, ?_, by omega⟩
    · simp only [slotPeriod, Nat.zero_add, value_eq, v41, hxb]; linarith
    · simp only [slotPeriod, Nat.zero_add, value_eq, v01, hxb]; linarith
  rcases findLk_spec (xbar := mod.xbar) (checkCnst_reads hS (q0Of st e)) (by omega) hL (by omega) with h1 | ⟨_, l, k, h1, h2⟩ | ⟨_, h1, _⟩
  · have := h1.1 1 (by omega)
    simp only [slotPeriod, value_eq, hxb] at this
    rw [slack_next h hm hl, slack_path h hm hl] at this
    simp only [qPath] at this
    rw [h0] at this
    linarith
  · obtain ⟨g1, g2, g3, g4⟩ := h1
    have hlk : l = 0 ∧ k = 1 := by
      have := g4 0 1 (by omega) (by omega) hcons
      have hb := g3.binds
      unfold LexLt at this
      simp only at this
      omega
    obtain ⟨rfl, rfl⟩ := hlk
    refine ⟨_, tFunc_find hm st e h2 (by omega) (by omega), rfl, ?_⟩
    simp only [xPath_zero, c1, Sum.elim_inr, hc1]
  · exact absurd hcons (h1 0 1 (by omega) (by omega))

end Ex10

/-- **C153** refuted in full, for all sizes of the tables: in `y = 1/4 y(-1) + 4/3 r + e`, `r = max(y, -1)`, the transition jumps at the steady state
and the shock `-4/9`, although all searches succeed. -/
theorem C153_continuous_refuted (lMax kMax : Nat) (hl : 1 ≤ lMax) (hL : lMax + 1 ≤ 999) (hk : 1 ≤ kMax) :
    ∃ mod, Succeeded Ex10.lay Ex10.orc lMax kMax (serial kMax) mod ∧
    ¬ ∀ (st : Fin 1 ⊕ Fin 1 → Rat) (e : Fin 1 → Rat) (r : Step (Fin 1) (Fin 1) Rat), tFunc mod st e .none false = .ok r → r.flag = 0 → ∀ η > 0, ∃ δ > 0,
      ∀ (st' : Fin 1 ⊕ Fin 1 → Rat) (e' : Fin 1 → Rat) (r' : Step (Fin 1) (Fin 1) Rat), Spec.Near δ st st' → Spec.Near δ e e' →
        tFunc mod st' e' .none false = .ok r' → r'.flag = 0 → Spec.Near η r.state r'.state := by
  obtain ⟨mod, h⟩ := Ex10.succeeds lMax kMax (Ex1.serial_perm lMax kMax)
  refine ⟨mod, h, fun hcont => ?_⟩
  obtain ⟨r, r1, r2, r3⟩ := Ex10.binding_run hl hL hk h 0 (fun _ => -4/9) (-4/9) (by simp) le_rfl
  obtain ⟨δ, hδ, hnear⟩ := hcont 0 (fun _ => -4/9) r r1 r2 1 one_pos
  have hm0 : 0 < min δ (1/9) := lt_min hδ (by norm_num)
  have hm1 : min δ (1/9 : Rat) ≤ 1/9 := min_le_right _ _
  obtain ⟨r', s1, s2, s3⟩ := Ex10.slack_run h 0 (fun _ => -4/9 + min δ (1/9)) (-4/9 + min δ (1/9)) (by simp) (by linarith) (by linarith)
  have := hnear 0 (fun _ => -4/9 + min δ (1/9)) r' (fun i => by simpa using hδ.le)
    (fun i => by simp only [add_sub_cancel_left]; rw [abs_of_pos hm0]; exact min_le_left _ _) s1 s2 (.inr 0)
  rw [r3, s3] at this
  have := (abs_le.1 this).2
  linarith

/-- The hypotheses of C153 are met, at a point at which two spells pass: in the first example with tables up to `(0,1)`, the shock `-3/2` moves `y`
to the bound, where the solution without a spell and the spell of one period agree; without another shock, the constraint is slack afterwards. -/
theorem C153_hypotheses_met : ∃ mod res, Succeeded Ex1.lay Ex1.orc 0 1 (serial 1) mod ∧
    simLoop mod false 0 [fun _ => -3/2, fun _ => 0] = .ok res ∧ res.flag = 0 ∧
    Spec.Passes mod 0 1 0 (fun _ => -3/2) 0 0 ∧ Spec.Passes mod 0 1 0 (fun _ => -3/2) 0 1 ∧
    (∀ (i : Nat) s e, res.X[i]? = some s → [fun _ : Fin 1 => (-3/2 : Rat), fun _ => 0][i]? = some e → Spec.Determined mod 0 1 s e) := by
  obtain ⟨mod, h⟩ := ex1_succeeds 0 1
  obtain ⟨c, hm⟩ := genSys_ok h.perm h.gen
  obtain ⟨c0, c1⟩ := Ex1.cells le_rfl hm
  have hz : Nonempty (Fin 1) := ⟨0⟩
  obtain ⟨r, r1, -, -, r2, r3, r4⟩ := Ex1.binding_region 0 1 le_rfl (by omega) h 0 (fun _ => -3/2) (-1) (by norm_num) (by norm_num) le_rfl
  have lam_mul : ∀ x : Ex1.Q → Rat, Ex1.lam *ᵥ x = fun i => match i with
      | .inl _ => 1/2 * x (.inl 0) + 2/3 * x (.inr 0)
      | .inr _ => 0 := by
    intro x
    funext i
    rcases i with i | i <;> simp [mulVec, dotProduct, Fintype.sum_sum_type, Ex1.lam]
  have omg_mul : ∀ x : Ex1.Q → Rat, Ex1.omg *ᵥ x = fun _ => 1/2 * x (.inl 0) + 2/3 * x (.inr 0) := by
    intro x
    funext i
    simp [mulVec, dotProduct, Fintype.sum_sum_type, Ex1.omg]
  have value_eq : ∀ q0 l k s, pathValue (ff Ex1.lay) c q0 l k s = qPath c l k q0 (s + 1) (.inl 0) := by
    intro q0 l k s
    simp only [pathValue, Ex1.fp1_eq, Ex1.fq0_eq, Ex1.fq1_eq, zero_dotProduct]
    simp [dotProduct, Fintype.sum_sum_type]
  have l00 : ∀ s, locCell c 0 0 s = ⟨Ex1.omg, 0, Ex1.lam, 0⟩ := by
    intro s
    have e1 : lLoc 0 s = 0 := by unfold lLoc; omega
    have e2 : kLoc 0 0 s = 0 := by unfold kLoc; omega
    simp only [locCell, e1, e2, c0]
  have l010 : locCell c 0 1 0 = Ex1.cell01 (-1) := c1
  have l011 : locCell c 0 1 1 = ⟨Ex1.omg, 0, Ex1.lam, 0⟩ := c0
  have v00 : ∀ (st : Fin 1 ⊕ Fin 1 → Rat) (e : Fin 1 → Rat), pathValue (ff Ex1.lay) c (q0Of st e) 0 0 0 = 1/2 * st (.inr 0) + 2/3 * e 0 := by
    intro st e
    rw [value_eq, qPath, l00, add_zero, lam_mul]
    rfl
  have q01 : ∀ q0, qPath c 0 1 q0 1 = Ex1.lam *ᵥ q0 := by
    intro q0
    rw [qPath, l010]
    simp only [Ex1.cell01, add_zero, qPath]
  have v01 : ∀ (st : Fin 1 ⊕ Fin 1 → Rat) (e : Fin 1 → Rat), pathValue (ff Ex1.lay) c (q0Of st e) 0 1 0 = 1/2 * st (.inr 0) + 2/3 * e 0 := by
    intro st e
    rw [value_eq, q01, lam_mul]
    rfl
  have v41 : ∀ (st : Fin 1 ⊕ Fin 1 → Rat) (e : Fin 1 → Rat), pathValue (ff Ex1.lay) c (q0Of st e) 0 1 1 = 1/2 * (1/2 * st (.inr 0) + 2/3 * e 0) := by
    intro st e
    rw [value_eq, qPath, q01, l011, add_zero, lam_mul, lam_mul]
    simp [q0Of]
  have p00 : ∀ st e, tFunc mod st e (.pair (0 : Nat) (0 : Nat)) false = .ok ⟨Sum.elim (fun _ => 1/2 * st (.inr 0) + 2/3 * e 0)
      (fun _ => 1/2 * st (.inr 0) + 2/3 * e 0), 0, 0, 0⟩ := by
    intro st e
    rw [tFunc_pair hm st e le_rfl (Nat.zero_le 1), xPath_zero, c0]
    simp only [add_zero, omg_mul, lam_mul]
    rfl
  have p01 : ∀ st e, tFunc mod st e (.pair (0 : Nat) (1 : Nat)) false = .ok ⟨Sum.elim (fun _ => -1) (fun _ => 1/2 * st (.inr 0) + 2/3 * e 0), 0, 1, 0⟩ := by
    intro st e
    rw [tFunc_pair hm st e le_rfl le_rfl, xPath_zero, c1]
    simp only [Ex1.cell01, zero_mulVec, zero_add, add_zero, lam_mul]
    rfl
  have hx : Ex1.inp'.xbar = -1 := rfl
  have hs2 : ∃ r', tFunc mod r.state (fun _ => 0) .none false = .ok r' ∧ r'.flag = 0 := by
    have hn : NeverBinds (valuesAt Ex1.lay c r.state (fun _ => 0)) Ex1.inp'.xbar 1 := by
      intro j hj
      have : j = 0 := by omega
      subst this
      show Ex1.inp'.xbar < pathValue (ff Ex1.lay) c (q0Of r.state fun _ => 0) 0 0 0
      rw [v00, r4, hx]
      norm_num
    rw [find_of_neverBinds h hm hn, tFunc_linear_eq h]
    exact ⟨_, rfl, rfl⟩
  obtain ⟨r', s1, s2⟩ := hs2
  have hsim : simLoop mod false 0 [fun _ => -3/2, fun _ => 0] = .ok ⟨[0, r.state, r'.state], [(r.l, r.k), (r'.l, r'.k)], r.flag ||| (r'.flag ||| 0)⟩ := by
    simp only [simLoop, r1, s1]
  refine ⟨mod, _, h, hsim, by simp [r2, s2], ?_, ?_, ?_⟩
  · rw [passes_iff hm 0 (fun _ => -3/2) le_rfl (by omega)]
    refine .inl ⟨rfl, rfl, fun j hj => ?_⟩
    have : j = 0 := by omega
    subst this
    show Ex1.inp'.xbar ≤ pathValue (ff Ex1.lay) c (q0Of 0 fun _ => -3/2) 0 0 0
    rw [v00, hx]
    norm_num
  · rw [passes_iff hm 0 (fun _ => -3/2) le_rfl le_rfl]
    refine .inr ⟨le_rfl, by omega, by omega, ?_, ?_, by omega⟩
    · show Ex1.inp'.xbar ≤ pathValue (ff Ex1.lay) c (q0Of 0 fun _ => -3/2) 0 1 1
      rw [v41, hx]
      norm_num
    · show pathValue (ff Ex1.lay) c (q0Of 0 fun _ => -3/2) 0 1 0 ≤ Ex1.inp'.xbar
      rw [v01, hx]
      norm_num
  · intro i s e hi he l k l' k' hl hk hl' hk' hp hp' t t' ht ht'
    have el : l = 0 := by omega
    have el' : l' = 0 := by omega
    subst el el'
    match i with
    | 0 =>
      simp only [List.getElem?_cons_zero, Option.some.injEq] at hi he
      subst hi he
      have key : ∀ (k : Nat) t, k ≤ 1 → tFunc mod 0 (fun _ => -3/2) (.pair (0 : Nat) k) false = .ok t → t.state = fun _ => -1 := by
        intro k t hk ht
        have : k = 0 ∨ k = 1 := by omega
        rcases this with rfl | rfl
        · rw [p00] at ht
          cases ht
          funext j
          rcases j with j | j <;> norm_num
        · rw [p01] at ht
          cases ht
          funext j
          rcases j with j | j <;> norm_num
      rw [key k t hk ht, key k' t' hk' ht']
    | 1 =>
      simp only [List.getElem?_cons_succ, List.getElem?_cons_zero, Option.some.injEq] at hi he
      subst hi he
      have key : ∀ k, k ≤ 1 → Spec.Passes mod 0 1 r.state (fun _ => 0) 0 k → k = 0 := by
        intro k hk hp
        by_contra hne
        have : k = 1 := by omega
        subst this
        rw [passes_iff hm _ _ le_rfl le_rfl] at hp
        rcases hp with hp | hp
        · exact absurd hp.2.1 (by omega)
        · have := hp.first
          replace this : pathValue (ff Ex1.lay) c (q0Of r.state fun _ => 0) 0 1 0 ≤ Ex1.inp'.xbar := this
          rw [v01, r4, hx] at this
          norm_num at this
      rw [key k hk hp] at ht
      rw [key k' hk' hp'] at ht'
      rw [ht] at ht'
      cases ht'
      rfl
    | (n + 2) => simp at he

end Pydsge
