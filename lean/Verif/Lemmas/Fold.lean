import Mathlib.Data.List.Range
import Mathlib.Data.List.Perm.Basic

/-! # Invariants of `foldlM` over ranges in `Except` -/

set_option autoImplicit false

namespace Pydsge

/-- Invariant rule for `for i in range(n)` loops that may raise. -/
theorem foldlM_range_inv {ε σ : Type _} {f : σ → Nat → Except ε σ} (P : Nat → σ → Prop) (E : ε → Prop) (n : Nat) (s0 : σ)
    (h0 : P 0 s0)
    (hs : ∀ i s, i < n → P i s → (∃ s', f s i = .ok s' ∧ P (i+1) s') ∨ (∃ e, f s i = .error e ∧ E e)) :
    (∃ s', (List.range n).foldlM f s0 = .ok s' ∧ P n s') ∨ (∃ e, (List.range n).foldlM f s0 = .error e ∧ E e) := by
  induction n with
  | zero => left; exact ⟨s0, rfl, h0⟩
  | succ n ih =>
    rw [List.range_succ, List.foldlM_append]
    rcases ih (fun i s hi => hs i s (by omega)) with ⟨s', h1, h2⟩ | ⟨e, h1, h2⟩
    · rw [h1]
      rcases hs n s' (by omega) h2 with ⟨s'', h3, h4⟩ | ⟨e, h3, h4⟩
      · left; exact ⟨s'', by simp [bind, Except.bind, h3, pure, Except.pure], h4⟩
      · right; exact ⟨e, by simp [bind, Except.bind, h3], h4⟩
    · right
      rw [h1]
      exact ⟨e, rfl, h2⟩

/-- Invariant rule for loops over a list that never raise. -/
theorem foldlM_inv {ε σ α : Type _} {f : σ → α → Except ε σ} (P : List α → σ → Prop) (xs : List α) (s0 : σ)
    (h0 : P [] s0)
    (hs : ∀ done x rest s, xs = done ++ x :: rest → P done s → ∃ s', f s x = .ok s' ∧ P (done ++ [x]) s') :
    ∃ s', xs.foldlM f s0 = .ok s' ∧ P xs s' := by
  suffices h : ∀ (rest done : List α) (s : σ), xs = done ++ rest → P done s → ∃ s', rest.foldlM f s = .ok s' ∧ P xs s' from
    h xs [] s0 rfl h0
  intro rest
  induction rest with
  | nil => intro done s hx hp; exact ⟨s, rfl, by simpa [hx] using hp⟩
  | cons x rest ih =>
    intro done s hx hp
    obtain ⟨s', h1, h2⟩ := hs done x rest s hx hp
    obtain ⟨s'', h3, h4⟩ := ih (done ++ [x]) s' (by simp [hx]) h2
    exact ⟨s'', by simp [List.foldlM_cons, h1, bind, Except.bind, h3], h4⟩

end Pydsge
