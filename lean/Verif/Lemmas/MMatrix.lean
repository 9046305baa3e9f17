import Verif.Lemmas.Lcp
import Mathlib.Algebra.BigOperators.Field
import Mathlib.Algebra.Order.BigOperators.Group.Finset
import Mathlib.Algebra.Order.Ring.Abs
import Mathlib.Data.Finset.Max

/-!
# Matrices that reverse no sign and have no positive entries off the diagonal

A matrix without positive entries off the diagonal reverses the sign of no vector but zero exactly if it maps some positive vector to a positive one.
-/

set_option autoImplicit false
set_option linter.unusedSectionVars false

namespace Pydsge.Lcp

variable {ι K : Type} [Fintype ι] [DecidableEq ι] [Field K] [LinearOrder K] [IsStrictOrderedRing K]

/-- If with some positive weights the entry on the diagonal is larger than the absolute values of the others of its row together, no sign is reversed. -/
theorem noSignReversed_of_dominant {A : ι → ι → K} {u : ι → K} (hu : ∀ i, 0 < u i)
    (hA : ∀ i, ∑ j ∈ Finset.univ.erase i, |A i j| * u j < A i i * u i) (w : ι → K) (hw : ∀ i, w i * ∑ j, A i j * w j ≤ 0) : w = 0 := by
  by_contra hne
  obtain ⟨i0, hi0⟩ : ∃ i, w i ≠ 0 := by
    by_contra hall
    push Not at hall
    exact hne (funext hall)
  obtain ⟨s, -, hs⟩ := Finset.exists_max_image Finset.univ (fun i => |w i| / u i) ⟨i0, Finset.mem_univ _⟩
  set t := |w s| / u s with ht
  have ht0 : 0 < t := lt_of_lt_of_le (div_pos (abs_pos.2 hi0) (hu i0)) (hs i0 (Finset.mem_univ _))
  have hle : ∀ j, |w j| ≤ t * u j := fun j => by
    have := hs j (Finset.mem_univ _)
    rwa [div_le_iff₀ (hu j)] at this
  have hws : |w s| = t * u s := by
    rw [ht, div_mul_cancel₀ _ (hu s).ne']
  have hterm : ∀ j, -(|w s| * t * (|A s j| * u j)) ≤ w s * (A s j * w j) := by
    intro j
    have h1 : |w s * (A s j * w j)| ≤ |w s| * t * (|A s j| * u j) := by
      rw [abs_mul, abs_mul]
      calc |w s| * (|A s j| * |w j|) ≤ |w s| * (|A s j| * (t * u j)) :=
            mul_le_mul_of_nonneg_left (mul_le_mul_of_nonneg_left (hle j) (abs_nonneg _)) (abs_nonneg _)
        _ = _ := by ring
    exact (neg_le_neg h1).trans (neg_abs_le _)
  have hdiag : |w s| * t * (A s s * u s) = w s * (A s s * w s) := by
    have : w s * w s = |w s| * |w s| := (abs_mul_abs_self _).symm
    calc |w s| * t * (A s s * u s) = A s s * (|w s| * (t * u s)) := by ring
      _ = A s s * (|w s| * |w s|) := by rw [← hws]
      _ = A s s * (w s * w s) := by rw [this]
      _ = _ := by ring
  have hsum : |w s| * t * (A s s * u s - ∑ j ∈ Finset.univ.erase s, |A s j| * u j) ≤ w s * ∑ j, A s j * w j := by
    rw [← Finset.add_sum_erase _ _ (Finset.mem_univ s), mul_add, mul_sub, hdiag, Finset.mul_sum, Finset.mul_sum, sub_eq_add_neg,
      ← Finset.sum_neg_distrib]
    exact add_le_add le_rfl (Finset.sum_le_sum fun j _ => hterm j)
  have hpos : 0 < |w s| * t * (A s s * u s - ∑ j ∈ Finset.univ.erase s, |A s j| * u j) := by
    refine mul_pos (mul_pos ?_ ht0) (sub_pos.2 (hA s))
    rw [hws]
    exact mul_pos ht0 (hu s)
  exact absurd (hw s) (not_le.2 (lt_of_lt_of_le hpos hsum))

/-- If a positive vector is mapped to a positive one, no sign is reversed. -/
theorem noSignReversed_of_dominated {A : ι → ι → K} (hoff : ∀ i j, i ≠ j → A i j ≤ 0) {u : ι → K} (hu : ∀ i, 0 < u i)
    (hAu : ∀ i, 0 < ∑ j, A i j * u j) (w : ι → K) (hw : ∀ i, w i * ∑ j, A i j * w j ≤ 0) : w = 0 := by
  refine noSignReversed_of_dominant hu (fun i => ?_) w hw
  have h1 := hAu i
  rw [← Finset.add_sum_erase _ _ (Finset.mem_univ i)] at h1
  have h2 : ∑ j ∈ Finset.univ.erase i, |A i j| * u j = -∑ j ∈ Finset.univ.erase i, A i j * u j := by
    rw [← Finset.sum_neg_distrib]
    refine Finset.sum_congr rfl fun j hj => ?_
    rw [abs_of_nonpos (hoff i j (Finset.ne_of_mem_erase hj).symm), neg_mul]
  rw [h2]
  linarith

/-- If no sign is reversed, a positive vector is mapped to a positive one. -/
theorem dominated_of_noSignReversed {M : (ι → K) →ₗ[K] (ι → K)} (hM : NoSignReversed M)
    (hoff : ∀ i j, i ≠ j → M (Pi.single j 1) i ≤ 0) : ∃ u : ι → K, (∀ i, 0 < u i) ∧ ∀ i, M u i = 1 := by
  obtain ⟨u, hu⟩ := pattern hM (fun _ => -1) (fun _ => true)
  have h1 : ∀ i, M u i = 1 := fun i => by
    have := hu i
    rw [if_pos rfl] at this
    linarith
  have hexp : ∀ v : ι → K, ∀ i, M v i = ∑ j, v j * M (Pi.single j 1) i := by
    intro v i
    have e : v = ∑ j, v j • (Pi.single j (1 : K) : ι → K) := by
      funext i
      simp [Finset.sum_apply, Pi.single_apply]
    conv_lhs => rw [e]
    rw [map_sum, Finset.sum_apply]
    simp only [map_smul, Pi.smul_apply, smul_eq_mul]
  have hlow : ∀ v : ι → K, (∀ j, 0 ≤ v j) → ∀ i, v i = 0 → M v i ≤ 0 := by
    intro v hv i hi
    rw [hexp]
    refine Finset.sum_nonpos fun j _ => ?_
    by_cases hj : j = i
    · subst hj
      rw [hi, zero_mul]
    · exact mul_nonpos_of_nonneg_of_nonpos (hv j) (hoff i j (Ne.symm hj))
  have hneg : (fun i => max (-(u i)) 0) = (0 : ι → K) := by
    have e : u + (fun i => max (-(u i)) 0) = fun i => max (u i) 0 := by
      funext i
      simp only [Pi.add_apply]
      rcases le_total (u i) 0 with g | g
      · rw [max_eq_left (neg_nonneg.2 g), max_eq_right g]
        ring
      · rw [max_eq_right (neg_nonpos.2 g), max_eq_left g]
        ring
    refine hM _ fun i => ?_
    rcases lt_or_ge (u i) 0 with g | g
    · have h2 := hlow (fun i => max (u i) 0) (fun j => le_max_right _ _) i (max_eq_right g.le)
      rw [← e, map_add, Pi.add_apply, h1 i] at h2
      refine mul_nonpos_of_nonneg_of_nonpos (le_max_right _ _) ?_
      linarith
    · rw [max_eq_right (neg_nonpos.2 g), zero_mul]
  have hnn : ∀ i, 0 ≤ u i := fun i => by
    have h2 := congrFun hneg i
    have h3 := le_max_left (-(u i)) 0
    simp only [Pi.zero_apply] at h2
    rw [h2] at h3
    linarith
  refine ⟨u, fun i => lt_of_le_of_ne (hnn i) fun h0 => ?_, h1⟩
  have := hlow u hnn i h0.symm
  rw [h1 i] at this
  exact absurd this (not_le.2 one_pos)

end Pydsge.Lcp
