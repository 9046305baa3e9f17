import Verif.Examples.Ex1Cells
import Mathlib.Tactic.Linarith

/-! # The example model far below the bound: with `k_max = 1` no equilibrium exists there -/

set_option autoImplicit false
set_option linter.unusedSimpArgs false

namespace Pydsge.Ex1

open Matrix Pydsge.Engine Pydsge.Spec Pydsge.Tools Pydsge.GenSys

/-- bounds on the decision rule of `r` -/
def J (c : Cell Q (Fin 1) Rat) : Prop :=
  0 ≤ c.pmat 0 (.inl 0) ∧ c.pmat 0 (.inl 0) ≤ 3/4 ∧ -1 ≤ c.pterm 0 ∧ c.pterm 0 ≤ 1

/-- `y` stays below the bound if `3/4 y(-1) + e ≤ -3` -/
def Low (c : Cell Q (Fin 1) Rat) : Prop :=
  ∀ q0 : Q → Rat, 3/4 * q0 (.inl 0) + q0 (.inr 0) ≤ -3 → (c.qmat *ᵥ q0 + c.qterm) (.inl 0) < -1

theorem step_low (l : Nat) (c c' : Cell Q (Fin 1) Rat) (h : J c) (hs : stepCell sysN l c = .ok c') : J c' ∧ Low c' := by
  obtain ⟨a0, a1, p0, p1⟩ := h
  have hpos : 0 < (1 + c.pmat 0 (.inl 0)) := by positivity
  have hne := hpos.ne'
  have hq : c'.qmat = invM (c.pmat 0 (.inl 0)) (c.pmat 0 (.inr 0)) * Tn.toBlocks₁₁ ∧
      c'.qterm = fun i => match i with | .inl _ => -c.pterm 0 / (1 + c.pmat 0 (.inl 0)) | .inr _ => 0 := by
    unfold stepCell getLam at hs
    dsimp only at hs
    rw [inv_ok l c a0] at hs
    simp only [(lower_blocks (b := -1) l).2.1, (lower_blocks (b := -1) l).2.2, Except.ok.injEq] at hs
    rw [← hs]
    refine ⟨rfl, ?_⟩
    ext i
    rcases i with i | i <;> by_cases hl : l ≠ 0 <;>
      simp [hl, mulVec, dotProduct, Fintype.sum_sum_type, invM, sysB, hnB, toBlocks₁₂, Sn] <;> field_simp
  have hqm : ∀ j, c'.qmat (.inl 0) j = match j with
      | .inl _ => 3/4 / (1 + c.pmat 0 (.inl 0)) | .inr _ => 1 / (1 + c.pmat 0 (.inl 0)) := by
    intro j
    rw [hq.1]
    rcases j with j | j <;> simp [Matrix.mul_apply, Fintype.sum_sum_type, invM, toBlocks₁₁, Tn] <;> field_simp
  have hp : (l ≠ 0 → c'.pmat 0 (.inl 0) = 3/4 / (1 + c.pmat 0 (.inl 0)) ∧ c'.pterm 0 = -c.pterm 0 / (1 + c.pmat 0 (.inl 0))) ∧
      (l = 0 → c'.pmat 0 (.inl 0) = 0 ∧ c'.pterm 0 = -1) := by
    have hq2 := hq.2
    unfold stepCell getLam at hs
    dsimp only at hs
    rw [inv_ok l c a0] at hs
    simp only [Except.ok.injEq, getOmg] at hs
    rw [← hs] at hqm hq2 ⊢
    simp only at hqm hq2 ⊢
    constructor
    · intro hl
      simp only [hl, ne_eq, not_false_eq_true, if_true] at hqm hq2 ⊢
      rw [hq2]
      constructor
      · rw [Matrix.sub_apply, Matrix.mul_apply, Fintype.sum_sum_type]
        simp only [Fintype.sum_unique, Fin.default_eq_zero, Fin.isValue]
        rw [hqm (.inl 0)]
        simp [Matrix.mul_apply, sysB, toBlocks₂₁, toBlocks₂₂, Sn, Tn]
      · simp [mulVec, dotProduct, Fintype.sum_sum_type, sysB, toBlocks₂₁, toBlocks₂₂, Sn, Matrix.mul_apply]
    · intro hl
      subst hl
      simp only [ne_eq, not_true_eq_false, if_false] at hqm hq2 ⊢
      rw [hq2]
      constructor
      · simp [Matrix.mul_apply, Fintype.sum_sum_type, sysB, toBlocks₂₁, toBlocks₂₂, Vm, Tn]
      · simp [mulVec, dotProduct, Fintype.sum_sum_type, sysB, toBlocks₂₁, toBlocks₂₂, Vm, hnB, Matrix.mul_apply]
  constructor
  · unfold J
    by_cases hl : l = 0
    · rw [(hp.2 hl).1, (hp.2 hl).2]; norm_num
    · rw [(hp.1 hl).1, (hp.1 hl).2]
      refine ⟨by positivity, ?_, ?_, ?_⟩
      · rw [div_le_iff₀ hpos]; linarith
      · rw [le_div_iff₀ hpos]; linarith
      · rw [div_le_iff₀ hpos]; linarith
  · intro q0 hq0
    have e : (c'.qmat *ᵥ q0 + c'.qterm) (.inl 0) =
        (3/4 * q0 (.inl 0) + q0 (.inr 0) - c.pterm 0) / (1 + c.pmat 0 (.inl 0)) := by
      simp only [Pi.add_apply, mulVec, dotProduct, Fintype.sum_sum_type, Fintype.sum_unique, Fin.default_eq_zero, Fin.isValue, hqm]
      rw [hq.2]
      field_simp
      ring
    rw [e, div_lt_iff₀ hpos]
    linarith

theorem low_cells {lMax kMax : Nat} {mod : Model (Fin 1) (Fin 1) (Fin 1) (Fin 1) Rat} {c : Nat → Nat → Cell Q (Fin 1) Rat}
    (h : SolvedModel lay orc lMax kMax mod c) : ∀ l k, l ≤ lMax → k ≤ kMax → J (c l k) ∧ (l + k ≠ 0 → Low (c l k)) := by
  obtain ⟨M', hS⟩ := h.eng
  have hM : M' = sysN := by
    have := hS.norm
    rw [norm_ok] at this
    simpa using this.symm
  have hkl := h.kl
  simp only [orc, Except.ok.injEq, Prod.mk.injEq] at hkl
  have h0 := hS.complete.start
  rw [← hkl.1, ← hkl.2] at h0
  have hstart : J (c 0 0) := by
    rw [h0]; unfold J; simp [omg]; norm_num
  have row0 : ∀ k, k ≤ kMax → J (c 0 k) ∧ (0 + k ≠ 0 → Low (c 0 k)) := by
    intro k
    induction k with
    | zero => intro _; exact ⟨hstart, fun h => absurd rfl h⟩
    | succ k ih =>
      intro hk
      have h1 := hS.complete.step 0 (k+1) (by omega) (by omega) (by left; omega)
      rw [lastIdx_zero, hM] at h1
      obtain ⟨a, b⟩ := step_low 0 _ _ (ih (by omega)).1 h1
      exact ⟨a, fun _ => b⟩
  intro l
  induction l with
  | zero => intro k _ hk; exact row0 k hk
  | succ l ih =>
    intro k hl hk
    have h1 := hS.complete.step (l+1) k (by omega) (by omega) (by right; omega)
    rw [lastIdx_pos (by omega), hM] at h1
    obtain ⟨a, b⟩ := step_low (l+1) _ _ (ih k (by omega) hk).1 h1
    exact ⟨a, fun _ => b⟩

/-- With `k_max = 1` and `3/4 y(-1) + e < -3` the search fails with flag 2 and imposes `(0,1)`. -/
theorem low_run (lMax : Nat) (hL : lMax + 1 ≤ 999) {sched : Nat → List Nat}
    {mod : Model (Fin 1) (Fin 1) (Fin 1) (Fin 1) Rat} (h : Succeeded lay orc lMax 1 sched mod)
    (st : Fin 1 ⊕ Fin 1 → Rat) (eps : Fin 1 → Rat) (hlow : 3/4 * st (.inr 0) + eps 0 < -3) :
    ∃ r, tFunc mod st eps .none false = .ok r ∧ r.l = 0 ∧ r.k = 1 ∧ r.flag = 2 ∧
      r.state (.inr 0) = 2/3 * (3/4 * st (.inr 0) + eps 0) := by
  obtain ⟨c, hm⟩ := genSys_ok h.perm h.gen
  obtain ⟨M', hS⟩ := hm.eng
  obtain ⟨c0, c1⟩ := cells (b := -1) le_rfl hm
  have hlowc := low_cells hm
  have hxb : mod.xbar = -1 := hm.xbar
  set q0 : Q → Rat := q0Of st eps with hq0
  have q0y : q0 (.inl 0) = st (.inr 0) := rfl
  have q0e : q0 (.inr 0) = eps 0 := rfl
  have hval : ∀ l k, l ≤ lMax → k ≤ 1 → l + k ≠ 0 → pathValue (ff lay) c q0 l k 0 < -1 := by
    intro l k hl hk hlk
    have := (hlowc l k hl hk).2 hlk q0 (by rw [q0y, q0e]; linarith)
    simp only [pathValue, fp1_eq, fq0_eq, fq1_eq, zero_dotProduct, qPath, locCell_zero, zero_add, add_zero]
    simpa [dotProduct, Fintype.sum_sum_type] using this
  have hl0 : lam *ᵥ q0 = fun j => match j with | .inl _ => 2/3 * (3/4 * st (.inr 0) + eps 0) | .inr _ => 0 := by
    ext i
    rcases i with i | i <;> simp [mulVec, dotProduct, Fintype.sum_sum_type, lam, hq0, q0Of]
    ring
  have hl1 : lam *ᵥ (lam *ᵥ q0) = fun j => match j with | .inl _ => 1/3 * (3/4 * st (.inr 0) + eps 0) | .inr _ => 0 := by
    rw [hl0]
    ext i
    rcases i with i | i <;> simp [mulVec, dotProduct, Fintype.sum_sum_type, lam]
    ring
  rw [hl0] at hl1
  have v00 : pathValue (ff lay) c q0 0 0 0 = 2/3 * (3/4 * st (.inr 0) + eps 0) := by
    simp only [pathValue, fp1_eq, fq0_eq, fq1_eq, zero_dotProduct, qPath, locCell_zero, c0, hl0, add_zero]
    simp [dotProduct, Fintype.sum_sum_type]
  have v41 : pathValue (ff lay) c q0 0 1 1 = 1/3 * (3/4 * st (.inr 0) + eps 0) := by
    have hloc : locCell c 0 1 1 = c 0 0 := by simp [locCell, lLoc, kLoc]
    simp only [pathValue, fp1_eq, fq0_eq, fq1_eq, zero_dotProduct, qPath, locCell_zero, hloc, c0, c1, cell01, hl0, hl1, add_zero]
    simp [dotProduct, Fintype.sum_sum_type]
  rcases findLk_spec (xbar := mod.xbar) (checkCnst_reads hS q0) (by omega) hL (by omega) with h1 | ⟨_, l, k, h1, h2⟩ | ⟨_, _, k, fl, g1, g2, g3, g4⟩
  · have := h1.1 0 (by omega)
    simp only [slotPeriod, v00, hxb] at this
    linarith
  · exfalso
    obtain ⟨g1, g2, g3, g4⟩ := h1
    have hb := g3.binds
    have hk : k = 1 := by omega
    subst hk
    by_cases hl : l = 0
    · subst hl
      have := g3.exit
      simp only [slotPeriod, Nat.zero_add, v41, hxb] at this
      linarith
    · have := g3.start (by omega)
      simp only [slotPeriod, hxb] at this
      have h2 := hval l 1 (by omega) (by omega) (by omega)
      linarith
  · have hk : k = 1 := by omega
    subst hk
    have hfl : fl = 2 := by
      rcases g3 with ⟨_, g3⟩ | ⟨g3, _⟩
      · simp only [slotPeriod, Nat.zero_add, v41, hxb] at g3
        linarith
      · exact g3
    refine ⟨_, tFunc_find hm st eps g4 (by omega) (by omega), rfl, rfl, hfl, ?_⟩
    simp only [xPath_zero, c1, Sum.elim_inr, cell01, add_zero, ← hq0, hl0]

end Pydsge.Ex1
