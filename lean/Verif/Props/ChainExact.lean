import Verif.Props.Chains

/-!
# C113: when exactly draws and densities belong together
-/

set_option autoImplicit false
set_option linter.unusedSectionVars false
set_option linter.unusedSimpArgs false

namespace Pydsge

open Pydsge.Chains

variable {X α : Type}

/-- The last steps are unique. -/
theorem lastSteps_unique {β : Type} {t : Nat} {xs a b : List β} (ha : Spec.LastSteps t xs a) (hb : Spec.LastSteps t xs b) : a = b := by
  obtain ⟨d, h1, h2, h3⟩ := ha
  obtain ⟨d', g1, g2, g3⟩ := hb
  have hl : a.length = b.length := by
    by_cases ht : t = 0
    · rw [h3 ht] at h1; rw [g3 ht] at g1
      simp only [List.nil_append] at h1 g1
      rw [← h1, ← g1]
    · rw [h2 ht, g2 ht]
  exact (List.append_inj' (h1.symm.trans g1) hl).2

theorem readerOf_reads {W : World X α} {s : Obj X α} {st : Stored X α} {trans : X → X} (h : Spec.Reads W s st trans) :
    getLogProb W s none = .ok st.lps := by
  unfold getLogProb
  rw [h.reader]

/-- **C113, exactly, for a given chain.** `mdd` then combines its draws with the densities of the last steps of the stored chain: the densities are those of the draws iff
these two lists of densities are the same. -/
theorem C113_given_iff {W : World X α} {s : Obj X α} {st : Stored X α} {trans : X → X} (dens : X → α)
    (h : Spec.Reads W s st trans) (hs : Spec.Sampled dens trans st) {tune : Option Int} {t : Nat} (hc : Spec.Counts s tune t)
    {kept : List (List X)} (hk : Spec.LastSteps t st.chain kept) (c : List X) :
    mddInputs W s (some c) none tune = .ok (c, (kept.flatten.map trans).map dens) ∧
    (mddInputs W s (some c) none tune = .ok (c, c.map dens) ↔ (kept.flatten.map trans).map dens = c.map dens) := by
  have ht := tuneOr_counts hc
  have e : mddInputs W s (some c) none tune = .ok (c, (kept.flatten.map trans).map dens) := by
    rw [lastSteps_unique hk (lastSteps_sliceFrom t st.chain)]
    unfold mddInputs
    simp only [ht, readerOf_reads h, bind, Except.bind, pure, Except.pure]
    rw [hs, sliceFrom_map]
    simp only [Except.ok.injEq, Prod.mk.injEq, true_and]
    simp [List.map_flatten, Function.comp_def]
  refine ⟨e, ?_⟩
  rw [e]
  simp

/-- The same for `mcmc_summary`, which takes the last steps of a given chain. -/
theorem C113_given_summary_iff {W : World X α} {s : Obj X α} {st : Stored X α} {trans : X → X} (dens : X → α)
    (h : Spec.Reads W s st trans) (hs : Spec.Sampled dens trans st) {tune : Option Int} {t : Nat} (hc : Spec.Counts s tune t)
    {kept : List (List X)} (hk : Spec.LastSteps t st.chain kept) (c last : List (List X)) (hlast : Spec.LastSteps t c last) :
    summaryInputs W s (some c) tune = .ok (last, kept.map (·.map (dens ∘ trans))) ∧
    (summaryInputs W s (some c) tune = .ok (last, last.map (·.map dens)) ↔ kept.map (·.map (dens ∘ trans)) = last.map (·.map dens)) := by
  have ht := tuneOr_counts hc
  have e : summaryInputs W s (some c) tune = .ok (last, kept.map (·.map (dens ∘ trans))) := by
    rw [lastSteps_unique hk (lastSteps_sliceFrom t st.chain), lastSteps_unique hlast (lastSteps_sliceFrom t c)]
    unfold summaryInputs
    simp only [ht, readerOf_reads h, bind, Except.bind, pure, Except.pure]
    rw [hs, sliceFrom_map]
    simp [Function.comp_def]
  refine ⟨e, ?_⟩
  rw [e]
  simp

/-- C113: with the model of `C113_hypotheses_met`, a given chain with the stored draws is fine, one with others is not. -/
theorem C113_iff_hypotheses_met : mddInputs Spec.exWorld Spec.exObj (some [1, 2]) none none = .ok ([1, 2], [1, 2]) ∧
    ¬ mddInputs Spec.exWorld Spec.exObj (some [7, 8]) none none = .ok ([7, 8], [7, 8]) ∧ Spec.LastSteps 1 [[1, 2]] [[(1 : Int), 2]] := by
  refine ⟨by decide +kernel, by decide +kernel, [], rfl, fun _ => rfl, fun _ => rfl⟩

end Pydsge
