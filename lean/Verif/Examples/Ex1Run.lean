import Verif.Examples.Ex1

/-! # A transition of the concrete model in which the constraint binds -/

set_option autoImplicit false
set_option linter.unusedSimpArgs false

namespace Pydsge.Ex1

open Matrix Pydsge.Engine Pydsge.Spec Pydsge.Tools Pydsge.GenSys

variable {b : Rat}

/-- the first cell with a binding constraint -/
def cell01 (b : Rat) : Cell Q (Fin 1) Rat where
  pmat := 0
  pterm := fun _ => b
  qmat := lam
  qterm := 0

theorem step01 : stepCell (sysB b) 0 ⟨omg, 0, lam, 0⟩ = .ok (cell01 b) := by
  have h0 : Inv ⟨omg, 0, lam, 0⟩ := by unfold Inv; norm_num [omg]
  have := inv_ok (b := b) 0 ⟨omg, 0, lam, 0⟩ h0
  simp only [ne_eq, not_true_eq_false, if_false] at this
  unfold stepCell getLam
  simp only [ne_eq, not_true_eq_false, if_false]
  rw [this]
  simp only [getOmg, ne_eq, not_true_eq_false, if_false, Except.ok.injEq, cell01, Cell.mk.injEq]
  have e1 : (invM (omg 0 (.inl 0)) (omg 0 (.inr 0)) * (sysB b).W.toBlocks₁₁) = lam := by
    ext i j
    rcases i with i | i <;> rcases j with j | j <;>
      simp [Matrix.mul_apply, Fintype.sum_sum_type, invM, sysB, toBlocks₁₁, Tn, lam, omg] <;> norm_num
  have e2 : (sysB b).V.toBlocks₂₁ + (sysB b).V.toBlocks₂₂ * omg = 0 := by
    ext i j
    rcases j with j | j <;> simp [Matrix.mul_apply, sysB, toBlocks₂₁, toBlocks₂₂, Vm]
  have e3 : (fun i => (sysB b).h (Sum.inl i) : Q → Rat) - (sysB b).V.toBlocks₁₂ *ᵥ (0 : Fin 1 → Rat) = 0 := by
    ext i
    rcases i with i | i <;> simp [sysB, hnB]
  refine ⟨?_, ?_, ?_, ?_⟩
  · rw [e2]
    ext i j
    rcases j with j | j <;> simp [sysB, toBlocks₂₁, Tn]
  · rw [e2]
    ext i
    simp [sysB, hnB]
  · exact e1
  · rw [e3, mulVec_zero]

theorem fp1_eq : (ff (layB b)).fp1 = 0 := by
  ext i; simp [ff, layB, yaml, Input.ofYaml, declB]

theorem fq1_eq : (ff (layB b)).fq1 = fun j => match j with | .inl _ => 1 | .inr _ => 0 := by
  ext i
  rcases i with i | i <;> simp [ff, qi, layB, fbY, fbN, yaml, Input.ofYaml, declB]

theorem fq0_eq : (ff (layB b)).fq0 = 0 := by
  ext i
  rcases i with i | i <;> simp [ff, qi, layB, fcY, fcN, yaml, Input.ofYaml, declB]

theorem cells {lMax kMax : Nat} {mod : Model (Fin 1) (Fin 1) (Fin 1) (Fin 1) Rat} {c : Nat → Nat → Cell Q (Fin 1) Rat}
    (hk : 1 ≤ kMax) (h : SolvedModel (layB b) orc lMax kMax mod c) : c 0 0 = ⟨omg, 0, lam, 0⟩ ∧ c 0 1 = cell01 b := by
  obtain ⟨M', hS⟩ := h.eng
  have hM : M' = sysB b := by
    have := hS.norm
    rw [norm_ok] at this
    simpa using this.symm
  have hkl := h.kl
  simp only [orc, Except.ok.injEq, Prod.mk.injEq] at hkl
  have h0 := hS.complete.start
  rw [← hkl.1, ← hkl.2] at h0
  refine ⟨h0, ?_⟩
  have h1 := hS.complete.step 0 1 (by omega) (by omega) (by simp)
  rw [lastIdx_zero, hM] at h1
  simp only [Nat.sub_self, h0, step01, Except.ok.injEq] at h1
  exact h1.symm

/-- A large negative shock from the steady state: the search returns `(0,1)` with flag 0, and `r = -1`, `y = -3/2`. -/
theorem binding_run (lMax kMax : Nat) (hk : 1 ≤ kMax) (hL : lMax + 1 ≤ 999) {sched : Nat → List Nat}
    {mod : Model (Fin 1) (Fin 1) (Fin 1) (Fin 1) Rat} (h : Succeeded lay orc lMax kMax sched mod) :
    ∃ r, tFunc mod 0 (fun _ => -9/4) .none false = .ok r ∧ r.l = 0 ∧ r.k = 1 ∧ r.flag = 0 ∧
      r.state (.inl 0) = -1 ∧ r.state (.inr 0) = -3/2 := by
  obtain ⟨c, hm⟩ := genSys_ok h.perm h.gen
  obtain ⟨M', hS⟩ := hm.eng
  obtain ⟨c0, c1⟩ := cells hk hm
  have hxb : mod.xbar = -1 := hm.xbar
  set q0 : Q → Rat := q0Of (0 : Fin 1 ⊕ Fin 1 → Rat) (fun _ => -9/4) with hq0
  have hl0 : lam *ᵥ q0 = fun j => match j with | .inl _ => -3/2 | .inr _ => 0 := by
    ext i
    rcases i with i | i <;> simp [mulVec, dotProduct, Fintype.sum_sum_type, lam, hq0, q0Of] <;> norm_num
  have hl1 : lam *ᵥ (lam *ᵥ q0) = fun j => match j with | .inl _ => -3/4 | .inr _ => 0 := by
    rw [hl0]
    ext i
    rcases i with i | i <;> simp [mulVec, dotProduct, Fintype.sum_sum_type, lam] <;> norm_num
  rw [hl0] at hl1
  have v00 : pathValue (ff lay) c q0 0 0 0 = -3/2 := by
    simp only [pathValue, fp1_eq, fq0_eq, fq1_eq, zero_dotProduct, qPath, locCell, lLoc, kLoc, Nat.sub_self, Nat.add_zero,
      Nat.min_self, c0, hl0, add_zero]
    simp [dotProduct, Fintype.sum_sum_type]
  have v01 : pathValue (ff lay) c q0 0 1 0 = -3/2 := by
    simp only [pathValue, fp1_eq, fq0_eq, fq1_eq, zero_dotProduct, qPath, locCell, lLoc, kLoc, Nat.sub_self, Nat.add_zero,
      Nat.sub_zero, Nat.min_self, c1, cell01, hl0, add_zero]
    simp [dotProduct, Fintype.sum_sum_type]
  have v41 : pathValue (ff lay) c q0 0 1 1 = -3/4 := by
    simp only [pathValue, fp1_eq, fq0_eq, fq1_eq, zero_dotProduct, qPath, locCell, lLoc, kLoc, Nat.sub_self, Nat.add_zero,
      Nat.sub_zero, Nat.zero_sub, Nat.min_self, c0, c1, cell01, hl0, hl1, add_zero, Nat.zero_le, Nat.min_eq_right]
    simp [dotProduct, Fintype.sum_sum_type]
  have hcons : Consistent (fun i l k => pathValue (ff lay) c q0 l k (slotPeriod l k i)) mod.xbar 0 1 := by
    refine ⟨le_rfl, by omega, by omega, ?_, ?_, by omega⟩
    · simp only [slotPeriod, Nat.zero_add, v41, hxb]; norm_num
    · simp only [slotPeriod, v01, hxb]; norm_num
  rcases findLk_spec (xbar := mod.xbar) (checkCnst_reads hS q0) (by omega) hL (by omega) with h1 | ⟨_, l, k, h1, h2⟩ | ⟨_, h1, _⟩
  · have := h1.1 0 (by omega)
    simp only [slotPeriod, v00, hxb] at this
    norm_num at this
  · obtain ⟨g1, g2, g3, g4⟩ := h1
    have hlk : l = 0 ∧ k = 1 := by
      have := g4 0 1 (by omega) (by omega) hcons
      have hb := g3.binds
      unfold LexLt at this
      simp only at this
      omega
    obtain ⟨rfl, rfl⟩ := hlk
    refine ⟨_, tFunc_find hm 0 (fun _ => -9/4) h2 (by omega) (by omega), rfl, rfl, rfl, ?_, ?_⟩
    · simp only [xPath_zero, c1, Sum.elim_inl, cell01, zero_mulVec, zero_add]
    · simp only [xPath_zero, c1, Sum.elim_inr, cell01, add_zero, ← hq0, hl0]
  · exact absurd hcons (h1 0 1 (by omega) (by omega))

end Pydsge.Ex1
