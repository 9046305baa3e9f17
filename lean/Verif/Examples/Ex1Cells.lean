import Verif.Props.Engine

/-! # More cells of the example model -/

set_option autoImplicit false
set_option linter.unusedSimpArgs false

namespace Pydsge.Ex1

open Matrix Pydsge.Engine Pydsge.Spec Pydsge.Tools Pydsge.GenSys

variable {b : Rat}

/-- all cells `(0,k)`, `k ≥ 2`: `r(+1) = b` is expected, hence `y = 3/4 y(-1) + e - b` -/
def cell02 (b : Rat) : Cell Q (Fin 1) Rat where
  pmat := 0
  pterm := fun _ => b
  qmat := fun i j => match i, j with
    | .inl _, .inl _ => 3/4
    | .inl _, .inr _ => 1
    | .inr _, _ => 0
  qterm := fun i => match i with
    | .inl _ => -b
    | .inr _ => 0

theorem cell_ext {c c' : Cell Q (Fin 1) Rat} (h1 : c.pmat = c'.pmat) (h2 : c.pterm = c'.pterm) (h3 : c.qmat = c'.qmat)
    (h4 : c.qterm = c'.qterm) : c = c' := by
  cases c; cases c'; simp only at h1 h2 h3 h4; subst h1 h2 h3 h4; rfl

theorem step_bind {c : Cell Q (Fin 1) Rat} (h1 : c.pmat = 0) (h2 : c.pterm = fun _ => b) :
    stepCell (sysB b) 0 c = .ok (cell02 b) := by
  have h0 : Inv c := by unfold Inv; rw [h1]; simp
  have := inv_ok (b := b) 0 c h0
  simp only [ne_eq, not_true_eq_false, if_false] at this
  unfold stepCell getLam
  simp only [ne_eq, not_true_eq_false, if_false]
  rw [this]
  simp only [getOmg, ne_eq, not_true_eq_false, if_false, Except.ok.injEq]
  have e1 : (invM (c.pmat 0 (.inl 0)) (c.pmat 0 (.inr 0)) * (sysB b).W.toBlocks₁₁) = (cell02 b).qmat := by
    ext i j
    rcases i with i | i <;> rcases j with j | j <;>
      simp [Matrix.mul_apply, Fintype.sum_sum_type, invM, sysB, toBlocks₁₁, Tn, cell02, h1]
    norm_num
  have e2 : (sysB b).V.toBlocks₂₁ + (sysB b).V.toBlocks₂₂ * c.pmat = 0 := by
    ext i j
    rcases j with j | j <;> simp [Matrix.mul_apply, sysB, toBlocks₂₁, toBlocks₂₂, Vm]
  have e3 : (fun i => (sysB b).h (Sum.inl i) : Q → Rat) - (sysB b).V.toBlocks₁₂ *ᵥ c.pterm =
      fun i => match i with | .inl _ => 0 | .inr _ => b := by
    ext i
    rcases i with i | i <;> simp [sysB, hnB, h2, mulVec, dotProduct, toBlocks₁₂, Vm]
  refine cell_ext ?_ ?_ ?_ ?_
  · rw [e2]
    ext i j
    rcases j with j | j <;> simp [sysB, toBlocks₂₁, Tn, cell02]
  · rw [e2]
    ext i
    simp [cell02, sysB, hnB, mulVec, dotProduct, toBlocks₂₂, Vm]
  · exact e1
  · rw [e3]
    ext i
    rcases i with i | i <;> simp [mulVec, dotProduct, Fintype.sum_sum_type, invM, h1, cell02]

theorem cells02 {lMax kMax : Nat} {mod : Model (Fin 1) (Fin 1) (Fin 1) (Fin 1) Rat} {c : Nat → Nat → Cell Q (Fin 1) Rat}
    (h : SolvedModel (layB b) orc lMax kMax mod c) {k : Nat} (h2 : 2 ≤ k) (hk : k ≤ kMax) : c 0 k = cell02 b := by
  obtain ⟨M', hS⟩ := h.eng
  have hM : M' = sysB b := by
    have := hS.norm
    rw [norm_ok] at this
    simpa using this.symm
  have hprev : (c 0 (k-1)).pmat = 0 ∧ (c 0 (k-1)).pterm = fun _ => b := by
    induction k with
    | zero => omega
    | succ k ih =>
      by_cases hk2 : k = 1
      · subst hk2
        have := (cells (by omega) h).2
        simp only [Nat.add_sub_cancel]
        rw [this]
        exact ⟨rfl, rfl⟩
      · have ih := ih (by omega) (by omega)
        have h1 := hS.complete.step 0 k (by omega) (by omega) (by left; omega)
        rw [lastIdx_zero, hM] at h1
        simp only [step_bind ih.1 ih.2, Except.ok.injEq] at h1
        simp only [Nat.add_sub_cancel]
        rw [← h1]
        exact ⟨rfl, rfl⟩
  have h1 := hS.complete.step 0 k (by omega) (by omega) (by left; omega)
  rw [lastIdx_zero, hM] at h1
  simp only [step_bind hprev.1 hprev.2, Except.ok.injEq] at h1
  exact h1.symm

end Pydsge.Ex1
