import Verif.Lemmas.GenSys
import Mathlib.Analysis.InnerProductSpace.PiL2
import Mathlib.Analysis.InnerProductSpace.Projection.FiniteDimensional

/-! # Over the reals, every matrix has the decomposition that `scipy.linalg.rq` promises -/

set_option autoImplicit false

namespace Pydsge.GenSys

open Matrix Module

theorem rq_exists {r q p : Type} [Fintype r] [Fintype q] [Fintype p] [DecidableEq r] [DecidableEq q] [DecidableEq p]
    (A : Matrix (q ⊕ p) r ℝ) (hc : Fintype.card q + Fintype.card p = Fintype.card r) :
    ∃ RQ : Matrix (q ⊕ p) (q ⊕ p) ℝ × Matrix (q ⊕ p) r ℝ, RQSpec A RQ.1 RQ.2 := by
  classical
  let a : p → EuclideanSpace ℝ r := fun i => WithLp.toLp 2 (A (.inr i))
  let U : Submodule ℝ (EuclideanSpace ℝ r) := Submodule.span ℝ (Set.range a)
  have hU : finrank ℝ U ≤ Fintype.card p := finrank_range_le_card a
  have hsum := U.finrank_add_finrank_orthogonal
  rw [finrank_euclideanSpace] at hsum
  have hn : Fintype.card q ≤ Fintype.card (Fin (finrank ℝ Uᗮ)) := by
    rw [Fintype.card_fin]; omega
  obtain ⟨f⟩ := Function.Embedding.nonempty_of_card_le hn
  let b0 := stdOrthonormalBasis ℝ Uᗮ
  let w : q → EuclideanSpace ℝ r := fun j => (b0 (f j) : EuclideanSpace ℝ r)
  have hw : Orthonormal ℝ w := (b0.orthonormal.comp f f.injective).comp_linearIsometry Uᗮ.subtypeₗᵢ
  let v : q ⊕ p → EuclideanSpace ℝ r := Sum.elim w 0
  let e : q ≃ Set.range (Sum.inl : q → q ⊕ p) := Equiv.ofInjective Sum.inl Sum.inl_injective
  have hv : Orthonormal ℝ ((Set.range (Sum.inl : q → q ⊕ p)).domRestrict v) := by
    have : (Set.range (Sum.inl : q → q ⊕ p)).domRestrict v = w ∘ e.symm := by
      funext x
      obtain ⟨j, rfl⟩ := e.surjective x
      simp only [Function.comp_apply, Equiv.symm_apply_apply]
      rfl
    rw [this]
    exact hw.comp _ e.symm.injective
  obtain ⟨b, hb⟩ := hv.exists_orthonormalBasis_extension_of_card_eq (by rw [finrank_euclideanSpace, Fintype.card_sum, hc])
  let Q : Matrix (q ⊕ p) r ℝ := fun i k => b i k
  have inner_eq : ∀ x y : EuclideanSpace ℝ r, inner ℝ x y = ∑ k, x k * y k := by
    intro x y
    simp only [PiLp.inner_apply, RCLike.inner_apply, conj_trivial]
    exact Finset.sum_congr rfl fun k _ => mul_comm _ _
  have h1 : Q * Qᵀ = 1 := by
    ext i j
    rw [Matrix.mul_apply, Matrix.one_apply]
    have := orthonormal_iff_ite.1 b.orthonormal i j
    rw [inner_eq] at this
    exact this
  have h2 : Qᵀ * Q = 1 :=
    (Matrix.mul_eq_one_comm_of_card_eq _ _ _ (by rw [Fintype.card_sum, hc])).1 h1
  refine ⟨(A * Qᵀ, Q), ?_, h2, h1, ?_⟩
  · rw [Matrix.mul_assoc, h2, Matrix.mul_one]
  · intro i j
    show (A * Qᵀ) (.inr i) (.inl j) = 0
    rw [Matrix.mul_apply]
    have hm : b (.inl j) ∈ Uᗮ := by
      rw [hb _ ⟨j, rfl⟩]
      exact (b0 (f j)).2
    have := (Submodule.mem_orthogonal U _).1 hm (a i) (Submodule.subset_span ⟨i, rfl⟩)
    rw [inner_eq] at this
    exact this

end Pydsge.GenSys
