import Verif.Lemmas.ParserExt
import Mathlib.Algebra.Polynomial.Roots
import Mathlib.Algebra.Polynomial.Derivative
import Mathlib.Tactic.FieldSimp

/-!
# Coefficients read off by differentiation

An expression that is polynomial in the symbols (denominators and arguments of functions contain parameters only) and whose values are
affine in the symbols: the derivatives at zero are the coefficients.
-/

set_option autoImplicit false
set_option linter.unusedSectionVars false
set_option linter.unusedSimpArgs false

namespace Pydsge
open Polynomial

variable {K : Type} [Field K]

/-- Polynomial in the symbols. -/
def Expr.PolyForm : Expr K → Prop
  | .num _ => True
  | .par _ => True
  | .sym _ => True
  | .add a b => a.PolyForm ∧ b.PolyForm
  | .sub a b => a.PolyForm ∧ b.PolyForm
  | .mul a b => a.PolyForm ∧ b.PolyForm
  | .div a b => a.PolyForm ∧ b.syms = []
  | .neg a => a.PolyForm
  | .pow a _ => a.PolyForm
  | .app _ a b => a.syms = [] ∧ b.syms = []

/-- The values are affine in the symbols, with coefficients `c` and constant `a`. -/
def Expr.AffineWith (I : Interp K) (e : Expr K) (c : TSym → K) (a : K) : Prop :=
  ∀ ρ, e.eval I ρ = (e.syms.toFinset).sum (fun s => c s * ρ s) + a

namespace Expr

/-- The polynomial along one symbol. -/
noncomputable def toPoly (I : Interp K) (s : TSym) : Expr K → K[X]
  | .num c => C c
  | .par n => C (I.par n)
  | .sym t => if t = s then X else 0
  | .add a b => a.toPoly I s + b.toPoly I s
  | .sub a b => a.toPoly I s - b.toPoly I s
  | .mul a b => a.toPoly I s * b.toPoly I s
  | .div a b => a.toPoly I s * C (b.eval I (fun _ => 0))⁻¹
  | .neg a => -a.toPoly I s
  | .pow a n => a.toPoly I s ^ n
  | .app f a b => C (I.fn f (a.eval I (fun _ => 0)) (b.eval I (fun _ => 0)))

theorem eval_nosyms (I : Interp K) (e : Expr K) (h : e.syms = []) (ρ ρ' : TSym → K) : e.eval I ρ = e.eval I ρ' :=
  eval_congr I ρ ρ' e (by simp [h])

theorem diff_nosyms (I : Interp K) (s : TSym) (e : Expr K) (h : e.syms = []) (ρ : TSym → K) : (e.diff s).eval I ρ = 0 := by
  induction e with
  | num c => rfl
  | par c => rfl
  | sym t => simp [syms] at h
  | neg a ih => simp only [diff, eval, ih h, neg_zero]
  | pow a n ih => simp only [diff, eval, ih h, mul_zero]
  | _ =>
    rename_i iha ihb
    simp only [syms, List.append_eq_nil_iff] at h
    simp [diff, eval, iha h.1, ihb h.2]

theorem eval_toPoly (I : Interp K) (s : TSym) (e : Expr K) (h : e.PolyForm) (x : K) :
    (e.toPoly I s).eval x = e.eval I (fun t => if t = s then x else 0) := by
  induction e with
  | num c => simp [toPoly, eval]
  | par c => simp [toPoly, eval]
  | sym t => simp only [toPoly, eval]; split <;> simp
  | add a b iha ihb => simp only [toPoly, eval, eval_add, iha h.1, ihb h.2]
  | sub a b iha ihb => simp only [toPoly, eval, eval_sub, iha h.1, ihb h.2]
  | mul a b iha ihb => simp only [toPoly, eval, eval_mul, iha h.1, ihb h.2]
  | div a b iha ihb =>
    simp only [toPoly, eval, eval_mul, eval_C, iha h.1, div_eq_mul_inv]
    rw [eval_nosyms I b h.2 (fun _ => 0)]
  | neg a ih => simp only [toPoly, eval, eval_neg, ih h]
  | pow a n ih => simp only [toPoly, eval, eval_pow, ih h]
  | app f a b iha ihb =>
    simp only [toPoly, eval, eval_C]
    rw [eval_nosyms I a h.1 (fun _ => 0), eval_nosyms I b h.2 (fun _ => 0)]

theorem deriv_toPoly (I : Interp K) (s : TSym) (e : Expr K) (h : e.PolyForm) :
    (derivative (e.toPoly I s)).eval 0 = (e.diff s).eval I (fun _ => 0) := by
  have hz : ∀ a : Expr K, a.PolyForm → (a.toPoly I s).eval 0 = a.eval I (fun _ => 0) := by
    intro a ha
    rw [eval_toPoly I s a ha]
    congr 1; funext t; split <;> rfl
  induction e with
  | num c => simp [toPoly, diff, eval]
  | par c => simp [toPoly, diff, eval]
  | sym t => simp only [toPoly, diff]; split <;> simp [eval]
  | add a b iha ihb => simp only [toPoly, diff, eval, derivative_add, eval_add, iha h.1, ihb h.2]
  | sub a b iha ihb => simp only [toPoly, diff, eval, derivative_sub, eval_sub, iha h.1, ihb h.2]
  | mul a b iha ihb =>
    simp only [toPoly, diff, eval, derivative_mul, eval_add, eval_mul, iha h.1, ihb h.2, hz a h.1, hz b h.2]
  | div a b iha ihb =>
    simp only [toPoly, diff, eval, derivative_mul, derivative_C, mul_zero, add_zero, eval_mul, eval_C, iha h.1,
      diff_nosyms I s b h.2, sub_zero]
    by_cases hb : b.eval I (fun _ => 0) = 0
    · simp [hb]
    · field_simp
  | neg a ih => simp only [toPoly, diff, eval, derivative_neg, eval_neg, ih h]
  | pow a n ih =>
    simp only [toPoly, diff, eval, derivative_pow, eval_mul, eval_pow, eval_C, ih h, hz a h]
  | app f a b iha ihb =>
    simp only [toPoly, diff, eval, derivative_C, eval_zero, diff_nosyms I s a h.1, diff_nosyms I s b h.2, mul_zero, add_zero]

/-- The derivative at zero is the coefficient. -/
theorem diff_eq_coef [Infinite K] (I : Interp K) (e : Expr K) (h : e.PolyForm) (c : TSym → K) (a : K) (ha : e.AffineWith I c a) (s : TSym)
    (hs : s ∈ e.syms) : (e.diff s).eval I (fun _ => 0) = c s := by
  have hp : e.toPoly I s = C (c s) * X + C a := by
    refine Polynomial.funext fun x => ?_
    rw [eval_toPoly I s e h, ha]
    simp only [mul_ite, mul_zero, eval_add, eval_mul, eval_C, eval_X]
    rw [Finset.sum_ite_eq' e.syms.toFinset s (fun t => c t * x), if_pos (by simpa using hs)]
  rw [← deriv_toPoly I s e h, hp]
  simp

theorem affine_const (I : Interp K) (e : Expr K) (c : TSym → K) (a : K) (ha : e.AffineWith I c a) : a = e.eval I (fun _ => 0) := by
  rw [ha]; simp

end Expr

namespace Parser

/-- The values of an affine expression in terms of the coefficients that differentiation finds, summed over any set that contains the
symbols. -/
theorem eval_coef [Infinite K] (I : Interp K) (e : Expr K) (h : e.PolyForm) (c : TSym → K) (a : K) (ha : e.AffineWith I c a)
    (U : Finset TSym) (hU : ∀ s ∈ e.syms, s ∈ U) (ρ : TSym → K) :
    e.eval I ρ = U.sum (fun s => coef I e s * ρ s) + e.eval I (fun _ => 0) := by
  rw [ha ρ, ← Expr.affine_const I e c a ha]
  congr 1
  have hsub : e.syms.toFinset ⊆ U := fun s hs => hU s (by simpa using hs)
  rw [← Finset.sum_subset hsub]
  · refine Finset.sum_congr rfl fun s hs => ?_
    have hs' : s ∈ e.syms := by simpa using hs
    rw [coef, if_pos hs', Expr.diff_eq_coef I e h c a ha s hs']
  · intro s _ hs
    have hs' : s ∉ e.syms := by simpa using hs
    rw [coef, if_neg hs', zero_mul]

open Classical in
/-- Sum over the symbols that may occur: leads, current values, lags of variables, and shocks. -/
theorem sum_symbols (vars shocks : Finset String) (f : TSym → K) :
    (vars.image (fun v => vsym v 1) ∪ vars.image (fun v => vsym v 0) ∪ vars.image (fun v => vsym v (-1)) ∪
        shocks.image (fun s => ssym s)).sum f
      = vars.sum (fun v => f (vsym v 1)) + vars.sum (fun v => f (vsym v 0)) + vars.sum (fun v => f (vsym v (-1))) +
        shocks.sum (fun s => f (ssym s)) := by
  have hi : ∀ d : Int, Set.InjOn (fun v => vsym v d) (vars : Set String) := fun d a _ b _ h => (vsym_inj.1 h).1
  have hj : Set.InjOn (fun v => ssym v) (shocks : Set String) := fun a _ b _ h => (ssym_inj.1 h).1
  rw [Finset.sum_union, Finset.sum_union, Finset.sum_union, Finset.sum_image (hi 1), Finset.sum_image (hi 0),
    Finset.sum_image (hi (-1)), Finset.sum_image hj]
  · rw [Finset.disjoint_left]
    intro s h1 h2
    simp only [Finset.mem_image] at h1 h2
    obtain ⟨a, _, rfl⟩ := h1
    obtain ⟨b, _, h⟩ := h2
    have := (vsym_inj.1 h).2; omega
  · rw [Finset.disjoint_left]
    intro s h1 h2
    simp only [Finset.mem_union, Finset.mem_image] at h1 h2
    obtain ⟨b, _, rfl⟩ := h2
    rcases h1 with ⟨a, _, h⟩ | ⟨a, _, h⟩ <;> (have := (vsym_inj.1 h).2; omega)
  · rw [Finset.disjoint_left]
    intro s h1 h2
    simp only [Finset.mem_union, Finset.mem_image] at h1 h2
    obtain ⟨b, _, rfl⟩ := h2
    rcases h1 with (⟨a, _, h⟩ | ⟨a, _, h⟩) | ⟨a, _, h⟩ <;> exact vsym_ne_ssym h

end Parser
end Pydsge
