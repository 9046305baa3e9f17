import Verif.Props.Info
import Verif.Props.Calls

/-!
# C97, C166: the whole outcome
-/

set_option autoImplicit false
set_option linter.unusedSectionVars false
set_option linter.unusedSimpArgs false

namespace Pydsge

section
open Info Chains
variable {K α : Type} {d : Nat}

/-- `info` has a title and a description: as attributes or in the dictionary of the model. -/
def Spec.Titled (tx : Texts) : Prop := (tx.name ≠ none ∨ tx.fdictName ≠ none) ∧ (tx.description ≠ none ∨ tx.fdictDescription ≠ none)

/-- The draws can be read. -/
def Spec.HasDraws (W : World (Fin d → K) α) (s : Obj (Fin d → K) α) : Prop :=
  s.sampler ≠ none ∨ ∃ f, f ≠ "" ∧ W.files f ≠ none ∧
    (s.backendFile = some f ∨ s.backendFile = none ∧ f = W.join s.path (s.name ++ "_sampler.h5"))

theorem readerOf_outcome (W : World (Fin d → K) α) (s : Obj (Fin d → K) α) :
    (Spec.HasDraws W s → ∃ st, readerOf W s none = .ok st) ∧
    (¬ Spec.HasDraws W s → readerOf W s none = .error .nameError ∨ readerOf W s none = .error .unboundLocal) := by
  unfold readerOf Spec.HasDraws
  cases hs : s.sampler with
  | some st => simp
  | none =>
    have h0 : ¬ ((none : Option String) ≠ none ∧ (none : Option String) ≠ some "") := fun h => h.1 rfl
    simp only [if_neg h0]
    cases hb : s.backendFile with
    | some f =>
      by_cases hf : f = ""
      · subst hf; simp
      · cases hw : W.files f with
        | none => simp [hf, hw]
        | some st => simp [hf, hw]
    | none =>
      by_cases hf : W.join s.path (s.name ++ "_sampler.h5") = ""
      · simp [hf]
      · cases hw : W.files (W.join s.path (s.name ++ "_sampler.h5")) with
        | none => simp [hf, hw]
        | some st => simp [hf, hw]

theorem attrOr_iff (a b : Option String) : ((∃ t, attrOr a b = .ok t) ↔ a ≠ none ∨ b ≠ none) ∧
    (¬ (a ≠ none ∨ b ≠ none) → attrOr a b = .error .keyError) := by
  cases a <;> cases b <;> simp [attrOr]

/-- What `get_chain` leaves. -/
theorem chainPart_state (W : World (Fin d → K) α) (s : Obj (Fin d → K) α) : (chainPart W s).1 = (getChain W s none).1 := by
  unfold chainPart
  rcases getChain W s none with ⟨s', r⟩
  cases r with
  | error e => cases e <;> rfl
  | ok c =>
    cases c with
    | nil => rfl
    | cons row rows =>
      simp only
      cases getTune s' with
      | error e => cases e <;> rfl
      | ok t => rfl

theorem chainPart_ok (W : World (Fin d → K) α) (s : Obj (Fin d → K) α) :
    (∃ t, (chainPart W s).2 = .ok t) ↔ ∀ e, (getChain W s none).2 = .error e → e = .attributeError ∨ e = .keyError := by
  unfold chainPart
  rcases getChain W s none with ⟨s', r⟩
  cases r with
  | error e => cases e <;> simp
  | ok c =>
    cases c with
    | nil => simp
    | cons row rows =>
      simp only
      unfold getTune
      cases s'.tune <;> cases s'.fdictTune <;> simp

/-- **C166 (exact).** `info` gives a text iff the model has a title and a description, its draws can be read and the transformation of the draws is known or the
preparation of the estimation does not fail, except with an `AttributeError` or a `KeyError`. -/
theorem C166_text_iff (W : World (Fin d → K) α) (tx : Texts) (s : Obj (Fin d → K) α) :
    (∃ t, (info W tx s).2 = .ok t) ↔ Spec.Titled tx ∧ Spec.HasDraws W s ∧
      (s.bptrans ≠ none ∨ ∀ e, W.loadEstim s = .error e → e = .attributeError ∨ e = .keyError) := by
  have hg : (∀ e, (getChain W s none).2 = .error e → e = .attributeError ∨ e = .keyError) ↔
      Spec.HasDraws W s ∧ (s.bptrans ≠ none ∨ ∀ e, W.loadEstim s = .error e → e = .attributeError ∨ e = .keyError) := by
    obtain ⟨h1, h2⟩ := readerOf_outcome W s
    by_cases hd : Spec.HasDraws W s
    · obtain ⟨st, hst⟩ := h1 hd
      unfold getChain
      rw [hst]
      simp only [hd, true_and]
      cases hb : s.bptrans with
      | some b => cases b <;> simp
      | none =>
        cases hl : W.loadEstim s with
        | error e => simp
        | ok s' =>
          cases hb' : s'.bptrans with
          | none => simp [hb']
          | some b => cases b <;> simp [hb']
    · unfold getChain
      rcases h2 hd with h | h <;> simp [h, hd]
  rw [← hg, ← chainPart_ok]
  obtain ⟨a1, a2⟩ := attrOr_iff tx.name tx.fdictName
  obtain ⟨b1, b2⟩ := attrOr_iff tx.description tx.fdictDescription
  unfold Spec.Titled
  by_cases ha : tx.name ≠ none ∨ tx.fdictName ≠ none
  · obtain ⟨n, hn⟩ := a1.2 ha
    by_cases hb : tx.description ≠ none ∨ tx.fdictDescription ≠ none
    · obtain ⟨m, hm⟩ := b1.2 hb
      unfold info
      simp only [hn, hm, ha, hb, true_and]
      rcases chainPart W s with ⟨s', r⟩
      cases r <;> simp
    · unfold info
      simp [hn, b2 hb, hb]
  · unfold info
    simp [a2 ha, ha]

/-- **C166 (exact).** `info` leaves the model as it is iff it does not get to the draws (no title, no description, no draws), or the transformation is known, or
the preparation fails or changes nothing. -/
theorem C166_unchanged_iff (W : World (Fin d → K) α) (tx : Texts) (s : Obj (Fin d → K) α) :
    (info W tx s).1 = s ↔ ¬ Spec.Titled tx ∨ ¬ Spec.HasDraws W s ∨ s.bptrans ≠ none ∨ ∀ s', W.loadEstim s = .ok s' → s' = s := by
  have hg : (getChain W s none).1 = s ↔ ¬ Spec.HasDraws W s ∨ s.bptrans ≠ none ∨ ∀ s', W.loadEstim s = .ok s' → s' = s := by
    obtain ⟨h1, h2⟩ := readerOf_outcome W s
    by_cases hd : Spec.HasDraws W s
    · obtain ⟨st, hst⟩ := h1 hd
      unfold getChain
      rw [hst]
      simp only [hd, not_true, false_or]
      cases hb : s.bptrans with
      | some b => cases b <;> simp
      | none =>
        cases hl : W.loadEstim s with
        | error e => simp
        | ok s' =>
          cases hb' : s'.bptrans with
          | none => simp [hb']
          | some b => cases b <;> simp [hb']
    · unfold getChain
      rcases h2 hd with h | h <;> simp [h, hd]
  obtain ⟨a1, a2⟩ := attrOr_iff tx.name tx.fdictName
  obtain ⟨b1, b2⟩ := attrOr_iff tx.description tx.fdictDescription
  unfold Spec.Titled
  by_cases ha : tx.name ≠ none ∨ tx.fdictName ≠ none
  · obtain ⟨n, hn⟩ := a1.2 ha
    by_cases hb : tx.description ≠ none ∨ tx.fdictDescription ≠ none
    · obtain ⟨m, hm⟩ := b1.2 hb
      rw [← chainPart_state] at hg
      unfold info
      simp only [hn, hm, ha, hb, true_and, not_true, false_or]
      rw [← hg]
      rcases chainPart W s with ⟨s', r⟩
      cases r <;> simp
    · unfold info
      simp [hn, b2 hb, hb]
  · unfold info
    simp [a2 ha, ha]

end

section
open Params Calls
variable {K : Type} [Field K] [LinearOrder K] {PP HX LS TT QQ : Type}
variable {S : Solver K PP (List String) HX LS TT QQ} {D : Decl K} {dr : Draws K} {g : GenArgs} {sq : QQ → QQ}

/-- **C97 (exact).** For a solved model: what is simulated is solved for the given parameters and the given bounds iff there are parameters that are not all zero and
`set_par` succeeds with them, or what the model has already happens to be that. `P` is any description of the solution. -/
theorem C97_simulated_iff (self : Ob K PP HX LS TT QQ) (v₀ : List K) (hv₀ : self.a.par = some v₀) (lks : Int × Int) (hl : self.a.lks = some lks)
    (pars : Option (List K)) (pelf : Ob K PP HX LS TT QQ) (P : Ob K PP HX LS TT QQ → Prop) :
    ((∃ r, irfsPrepare S D dr g sq self pars = .ok r ∧ r.self = self ∧ r.lks = lks ∧ r.pelf = some pelf ∧ P pelf) ↔
      (∃ v w, pars = some v ∧ (∃ x ∈ v, x ≠ 0) ∧ setPar S D dr g sq self (.vec v) none = (pelf, .ok w) ∧ P pelf) ∨
      ((∀ v, pars = some v → ∀ x ∈ v, x = 0) ∧ pelf = self ∧ P self)) := by
  unfold irfsPrepare
  simp only [hv₀, hl]
  cases pars with
  | none => 
    simp only [Except.ok.injEq, reduceCtorEq, false_and, exists_false, false_or, IsEmpty.forall_iff, implies_true, true_and]
    constructor
    · rintro ⟨r, rfl, _, _, h3, h4⟩; cases h3; exact ⟨rfl, h4⟩
    · rintro ⟨rfl, h⟩; exact ⟨_, rfl, rfl, rfl, rfl, h⟩
  | some v =>
    by_cases hne : ∃ x ∈ v, x ≠ 0
    · have hany : v.any (fun x => decide (x ≠ 0)) = true := by simpa [List.any_eq_true] using hne
      have hno : ¬ ∀ w, some v = some w → ∀ x ∈ w, x = 0 := by
        intro h
        obtain ⟨x, hx, hx0⟩ := hne
        exact hx0 (h v rfl x hx)
      simp only [hany, if_true, hno, false_and, or_false]
      rcases hs : setPar S D dr g sq self (.vec v) none with ⟨q, r⟩
      cases r with
      | error e =>
        cases e <;> simp [hs]
      | ok w =>
        simp only [Except.ok.injEq]
        constructor
        · rintro ⟨r, rfl, _, _, h3, h4⟩
          cases h3
          exact ⟨v, w, rfl, hne, hs, h4⟩
        · rintro ⟨v', w', hv', _, hs', h4⟩
          cases hv'
          rw [hs] at hs'
          cases hs'
          exact ⟨_, rfl, rfl, rfl, rfl, h4⟩
    · have hany : v.any (fun x => decide (x ≠ 0)) = false := by
        rw [Bool.eq_false_iff]
        intro h
        exact hne (by simpa [List.any_eq_true] using h)
      simp only [hany, Bool.false_eq_true, if_false, Except.ok.injEq]
      constructor
      · rintro ⟨r, rfl, _, _, h3, h4⟩
        cases h3
        refine Or.inr ⟨?_, rfl, h4⟩
        intro w hw x hx
        cases hw
        by_contra h0
        exact hne ⟨x, hx, h0⟩
      · rintro (⟨v', _, hv', h, _⟩ | ⟨_, rfl, h⟩)
        · cases hv'; exact absurd h hne
        · exact ⟨_, rfl, rfl, rfl, rfl, h⟩

/-- **C97 (exact): bounds.** With parameters that are all zero, or none, the bounds given to `irfs` make no difference. -/
theorem C97_bounds_ignored (g' : GenArgs) (self : Ob K PP HX LS TT QQ) (v₀ : List K) (hv₀ : self.a.par = some v₀) (pars : Option (List K))
    (hp : ∀ v, pars = some v → ∀ x ∈ v, x = 0) : irfsPrepare S D dr g sq self pars = irfsPrepare S D dr g' sq self pars := by
  unfold irfsPrepare
  simp only [hv₀]
  cases pars with
  | none => rfl
  | some v =>
    have hany : v.any (fun x => decide (x ≠ 0)) = false := by
      rw [Bool.eq_false_iff]
      intro h
      simp only [List.any_eq_true, decide_eq_true_eq] at h
      obtain ⟨x, hx, h0⟩ := h
      exact h0 (hp v rfl x hx)
    simp only [hany, Bool.false_eq_true, if_false]

end
end Pydsge
