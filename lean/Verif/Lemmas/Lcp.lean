import Mathlib.Algebra.Order.Field.Basic
import Mathlib.LinearAlgebra.FiniteDimensional.Lemmas
import Mathlib.LinearAlgebra.FiniteDimensional.Basic
import Mathlib.Tactic.Linarith

/-!
# Complementarity problems with a matrix that reverses no sign

`M` reverses the sign of no vector but zero (it is a P-matrix).  Then for all `q` there is exactly one `w` with `0 ≤ w`, `0 ≤ q + M w`, and in
every component one of both zero.  The proof is by induction over the components in which the choice is left open: for the next component `a`,
the solutions with `w a = 0` and with `(q + M w) a = 0` cannot both be infeasible.
-/

set_option autoImplicit false

namespace Pydsge.Lcp

variable {ι K : Type} [Fintype ι] [DecidableEq ι] [Field K] [LinearOrder K] [IsStrictOrderedRing K]

/-- No vector but zero has its sign reversed in all components. -/
def NoSignReversed (M : (ι → K) →ₗ[K] (ι → K)) : Prop := ∀ w, (∀ i, w i * M w i ≤ 0) → w = 0

/-- Complementarity in one component. -/
def Compl (u y : K) : Prop := 0 ≤ u ∧ 0 ≤ y ∧ u * y = 0

theorem compl_diff {u y u' y' : K} (h : Compl u y) (h' : Compl u' y') : (u - u') * (y - y') ≤ 0 := by
  obtain ⟨a, b, c⟩ := h
  obtain ⟨a', b', c'⟩ := h'
  nlinarith [mul_nonneg a b', mul_nonneg a' b]

variable {M : (ι → K) →ₗ[K] (ι → K)}

/-- Every choice of components in which `q + M w` is zero, while `w` is zero in the others, can be met. -/
theorem pattern (hM : NoSignReversed M) (q : ι → K) (S : ι → Bool) :
    ∃ w, ∀ i, if S i = true then q i + M w i = 0 else w i = 0 := by
  let N : (ι → K) →ₗ[K] (ι → K) :=
    { toFun := fun w i => if S i = true then M w i else w i
      map_add' := by intro a b; funext i; simp only [map_add, Pi.add_apply]; split_ifs <;> rfl
      map_smul' := by intro c a; funext i; simp only [map_smul, Pi.smul_apply, RingHom.id_apply]; split_ifs <;> rfl }
  have hN : ∀ w i, N w i = if S i = true then M w i else w i := fun _ _ => rfl
  have hinj : Function.Injective N := by
    rw [← LinearMap.ker_eq_bot, LinearMap.ker_eq_bot']
    intro w hw
    refine hM w fun i => ?_
    have := congrFun hw i
    rw [hN] at this
    split_ifs at this with hS
    · rw [this]; simp
    · rw [show w i = 0 from this]; simp
  obtain ⟨w, hw⟩ := (LinearMap.injective_iff_surjective.1 hinj) (fun i => if S i = true then - q i else 0)
  refine ⟨w, fun i => ?_⟩
  have := congrFun hw i
  rw [hN] at this
  split_ifs at this ⊢ with hS
  · rw [this]; ring
  · exact this

/-- In the components of `C` the choice is left open. -/
theorem mixed (hM : NoSignReversed M) (q : ι → K) (C : Finset ι) : ∀ S : ι → Bool,
    ∃ w, ∀ i, if i ∈ C then Compl (w i) (q i + M w i) else if S i = true then q i + M w i = 0 else w i = 0 := by
  induction C using Finset.induction_on with
  | empty =>
    intro S
    obtain ⟨w, hw⟩ := pattern hM q S
    exact ⟨w, fun i => by simpa using hw i⟩
  | insert a C ha ih =>
    intro S
    obtain ⟨w, hw⟩ := ih (Function.update S a false)
    obtain ⟨v, hv⟩ := ih (Function.update S a true)
    have hwa := hw a
    have hva := hv a
    simp only [ha, if_false, Function.update_self] at hwa hva
    simp only [Bool.false_eq_true, if_false, if_true] at hwa hva
    have other : ∀ (b : Bool) (u : ι → K), (∀ i, if i ∈ C then Compl (u i) (q i + M u i)
        else if Function.update S a b i = true then q i + M u i = 0 else u i = 0) → Compl (u a) (q a + M u a) →
        ∀ i, if i ∈ insert a C then Compl (u i) (q i + M u i) else if S i = true then q i + M u i = 0 else u i = 0 := by
      intro b u hu hua i
      have h1 := hu i
      by_cases hia : i = a
      · subst hia
        simpa using hua
      · simpa [hia, Function.update_of_ne hia] using h1
    by_cases h0 : 0 ≤ q a + M w a
    · exact ⟨w, other false w hw ⟨by rw [hwa], h0, by rw [hwa, zero_mul]⟩⟩
    push Not at h0
    refine ⟨v, other true v hv ?_⟩
    rcases le_total 0 (v a) with h1 | h1
    · exact ⟨h1, by rw [hva], by rw [hva, mul_zero]⟩
    exfalso
    have h2 : v - w = 0 := by
      refine hM _ fun i => ?_
      rw [map_sub]
      show (v i - w i) * (M v i - M w i) ≤ 0
      have e : M v i - M w i = (q i + M v i) - (q i + M w i) := by ring
      rw [e]
      have a1 := hv i
      have a2 := hw i
      by_cases hia : i = a
      · subst hia
        rw [hva, hwa]
        nlinarith
      by_cases hiC : i ∈ C
      · simp only [hiC, if_true] at a1 a2
        exact compl_diff a1 a2
      · simp only [hiC, if_false, Function.update_of_ne hia] at a1 a2
        split_ifs at a1 a2 with hS
        · rw [a1, a2]; simp
        · rw [a1, a2]; simp
    have h3 : v = w := sub_eq_zero.1 h2
    rw [h3] at hva
    linarith

/-- There is exactly one solution. -/
theorem exists_unique (hM : NoSignReversed M) (q : ι → K) : ∃! w : ι → K, ∀ i, Compl (w i) (q i + M w i) := by
  obtain ⟨w, hw⟩ := mixed hM q Finset.univ (fun _ => false)
  have hw' : ∀ i, Compl (w i) (q i + M w i) := fun i => by simpa using hw i
  refine ⟨w, hw', fun v hv => ?_⟩
  refine sub_eq_zero.1 (hM (v - w) fun i => ?_)
  rw [map_sub]
  show (v i - w i) * (M v i - M w i) ≤ 0
  have e : M v i - M w i = (q i + M v i) - (q i + M w i) := by ring
  rw [e]
  exact compl_diff (hv i) (hw' i)

end Pydsge.Lcp
