import Verif.Props.ParDict
import Verif.Props.BestSet

/-!
# C151: several copies of `best` and of the posterior mean, and samples

mpile.py:182-190, 198-206, 265-269.
-/

set_option autoImplicit false
set_option linter.unusedSectionVars false
set_option linter.unusedSimpArgs false

namespace Pydsge

open Pydsge.Params

variable {K PP VV HX LS TT QQ : Type}

section
variable [Field K] [LinearOrder K] {S : Solver K PP VV HX LS TT QQ} {D : Decl K} {dr : Draws K} {g : GenArgs} {ob : Obj K PP VV HX LS TT QQ}

/-- **C151 (partial)** for `best`: `n` copies of the mode if it is known, else of the initial values, every entry with its own noise.

Missing: as in `C151_scattered_partial`. -/
theorem C151_best_partial (h : WF D) (p : Prior K) (hp : D.prior = some p) (hf : Fits p ob) (hnot : "best" ∉ D.names ∧ "best" ∉ D.pfNames) {v₀ : List K}
    (hv : ob.a.par = some v₀) (n : Nat) (hn : 1 < n) (hz : Spec.Shaped (dr.randn n p.names.length) n p.names.length)
    (ob' : Obj K PP VV HX LS TT QQ) (r : ParVal K QQ) (hg : getPar S D dr g ob (.str "best") none false n = (ob', .ok r)) :
    ∃ w rows, r = .mat rows ∧ (∀ j : Nat, w[j]? = Spec.DocValue D p ob (if ob.modeX = none then "init" else "mode") j) ∧ w.length = p.names.length ∧
      Spec.Scattered n w (dr.randn n p.names.length) rows := by
  unfold getPar at hg
  simp only [startPars_some hv, List.idxOf?_eq_none_iff.2 hnot.1, List.idxOf?_eq_none_iff.2 hnot.2] at hg
  rw [if_neg (by decide), if_pos trivial] at hg
  rcases hb : bestSet D dr ob with ⟨ob1, e | c⟩
  · simp [hb] at hg
  · obtain ⟨w, rfl, hwl, hwv⟩ := bestSet_doc h p hp hf hb
    have hs : isSample "best" = false := by decide
    simp only [hb, candPar, hs, gt_iff_lt, hn, if_true, if_false, Bool.false_eq_true, Prod.mk.injEq, Except.ok.injEq] at hg
    rw [← hwl] at hz ⊢
    obtain ⟨rows, h1, h2⟩ := scattered_of (QQ := QQ) n w hz
    exact ⟨w, rows, by rw [← hg.2, h1], hwv, rfl, h2⟩

/-- **C151 (partial)** for the posterior mean: `n` copies of the mean, every entry with its own noise, if there is a mean; the exception of `post_mean` otherwise.

Missing: as in `C151_scattered_partial`. -/
theorem C151_post_mean_partial (s : String) (hs : s = "posterior_mean" ∨ s = "post_mean") (hnot : s ∉ D.names ∧ s ∉ D.pfNames) {v₀ : List K}
    (hv : ob.a.par = some v₀) (n : Nat) (hn : 1 < n) (hz : ∀ w, dr.postMean = .ok w → Spec.Shaped (dr.randn n w.length) n w.length) :
    (∀ w, dr.postMean = .ok w → ∃ rows, (getPar S D dr g ob (.str s) none false n).2 = .ok (.mat rows) ∧ Spec.Scattered n w (dr.randn n w.length) rows) ∧
    ∀ e, dr.postMean = .error e → (getPar S D dr g ob (.str s) none false n).2 = .error e := by
  have hc : s ≠ "cov_mat" ∧ s ≠ "best" ∧ isSample s = false ∧ s ≠ "prior" ∧ ¬ (s = "post" ∨ s = "posterior") := by
    rcases hs with rfl | rfl <;> decide
  constructor
  · intro w hw
    obtain ⟨rows, h1, h2⟩ := scattered_of (QQ := QQ) n w (hz w hw)
    refine ⟨rows, ?_, h2⟩
    unfold getPar namedSet
    simp only [startPars_some hv, List.idxOf?_eq_none_iff.2 hnot.1, List.idxOf?_eq_none_iff.2 hnot.2, hc.1, hc.2.1, hc.2.2.1, hc.2.2.2.1, if_neg hc.2.2.2.2, if_pos hs, if_false,
      hw, Except.map, candPar, gt_iff_lt, hn, if_true, Bool.false_eq_true, h1]
  · intro e he
    unfold getPar namedSet
    simp only [startPars_some hv, List.idxOf?_eq_none_iff.2 hnot.1, List.idxOf?_eq_none_iff.2 hnot.2, hc.1, hc.2.1, hc.2.2.2.1, if_neg hc.2.2.2.2, if_pos hs, if_false,
      he, Except.map]

/-- **C151 (samples)**: `get_par('prior' | 'post' | 'posterior', full=False, nsamples=n)` returns the sample as it was drawn, without noise. -/
theorem C151_samples (s : String) (hs : isSample s = true) (hnot : s ∉ D.names ∧ s ∉ D.pfNames) {v₀ : List K} (hv : ob.a.par = some v₀) (n : Nat) :
    (getPar S D dr g ob (.str s) none false n).2 = ((if s = "prior" then dr.prior n else dr.posterior n).map fun m => .cand (.mat m)) := by
  have hs' : s = "prior" ∨ s = "post" ∨ s = "posterior" := by simpa [isSample] using hs
  have hc : s ≠ "cov_mat" ∧ s ≠ "best" := by
    rcases hs' with rfl | rfl | rfl <;> decide
  unfold getPar namedSet
  simp only [startPars_some hv, List.idxOf?_eq_none_iff.2 hnot.1, List.idxOf?_eq_none_iff.2 hnot.2, hc.1, hc.2, if_false]
  by_cases h1 : s = "prior"
  · simp only [if_pos h1]
    cases dr.prior n with
    | error e => rfl
    | ok m =>
      simp only [Except.map, candPar, hs, if_true, Bool.false_eq_true, if_false]
      split_ifs <;> rfl
  · have h2 : s = "post" ∨ s = "posterior" := hs'.resolve_left h1
    simp only [if_neg h1, if_pos h2]
    cases dr.posterior n with
    | error e => rfl
    | ok m =>
      simp only [Except.map, candPar, hs, if_true, Bool.false_eq_true, if_false]
      split_ifs <;> rfl

/-- **C151 (samples, all parameters)**: with `full=True` row `i` of the result is the calibration with the estimated parameters of draw `i`. -/
theorem C151_samples_full (h : WF D) (p : Prior K) (hp : D.prior = some p) (hfix : D.parFix.length = D.names.length) (s : String) (hs : isSample s = true)
    (hnot : s ∉ D.names ∧ s ∉ D.pfNames) {v₀ : List K} (hv : ob.a.par = some v₀) (n : Nat)
    (m : List (List K)) (hm : (if s = "prior" then dr.prior n else dr.posterior n) = .ok m) (hsh : Spec.Shaped m n p.names.length) :
    ∃ rows, (getPar S D dr g ob (.str s) none true n).2 = .ok (.mat rows) ∧ rows.length = n ∧
      ∀ (i : Nat) (w v : List K), m[i]? = some w → rows[i]? = some v → Spec.Overlay D p.names w v := by
  have hs' : s = "prior" ∨ s = "post" ∨ s = "posterior" := by simpa [isSample] using hs
  have hc : s ≠ "cov_mat" ∧ s ≠ "best" := by
    rcases hs' with rfl | rfl | rfl <;> decide
  have hnamed : (namedSet D dr ob s n).2 = .ok (.mat m) := by
    unfold namedSet
    by_cases h1 : s = "prior"
    · rw [if_pos h1] at hm ⊢
      simp [hm, Except.map]
    · have h2 : s = "post" ∨ s = "posterior" := hs'.resolve_left h1
      rw [if_neg h1] at hm ⊢
      rw [if_pos h2]
      simp [hm, Except.map]
  have hmap : (List.range n).mapM (fun i => match m[i]? with
      | none => (.error .indexError : Except PyErr (List K))
      | some w => assignPrior D D.parFix (.vec w)) = .ok (m.map fun w => setMany D.parFix p.arg w) := by
    rw [← hsh.1]
    have key : ∀ (l : List (List K)) (pre : List (List K)), (∀ w ∈ l, w.length = p.names.length) →
        ((List.range l.length).map (· + pre.length)).mapM (fun i => match (pre ++ l)[i]? with
          | none => (.error .indexError : Except PyErr (List K))
          | some w => assignPrior D D.parFix (.vec w)) = .ok (l.map fun w => setMany D.parFix p.arg w) := by
      intro l
      induction l with
      | nil => intro pre _; rfl
      | cons w l ih =>
        intro pre hw
        have h1 := (overlayOn_of h p hp D.parFix hfix w (hw w (by simp))).1
        have h2 := ih (pre ++ [w]) (fun w' hw' => hw w' (by simp [hw']))
        rw [List.length_cons, List.range_succ_eq_map, List.map_cons, List.mapM_cons]
        have h3 : (pre ++ w :: l)[0 + pre.length]? = some w := by simp
        simp only [h3, h1]
        have h4 : (List.map (fun x => x + pre.length) (List.map Nat.succ (List.range l.length))) = (List.range l.length).map (· + (pre ++ [w]).length) := by
          rw [List.map_map]
          refine List.map_congr_left fun i _ => ?_
          simp only [Function.comp_apply, List.length_append, List.length_cons, List.length_nil]
          omega
        have h5 : pre ++ w :: l = (pre ++ [w]) ++ l := by simp
        rw [h4, h5, h2]
        rfl
    have := key m [] hsh.2
    simpa using this
  refine ⟨m.map fun w => setMany D.parFix p.arg w, ?_, by simp [hsh.1], ?_⟩
  · unfold getPar
    simp only [startPars_some hv, List.idxOf?_eq_none_iff.2 hnot.1, List.idxOf?_eq_none_iff.2 hnot.2, hc.1, hc.2, if_false]
    rcases hn : namedSet D dr ob s n with ⟨o, e | c⟩
    · rw [hn] at hnamed
      cases hnamed
    · rw [hn] at hnamed
      simp only [Except.ok.injEq] at hnamed
      subst hnamed
      simp only [if_true, fullPar]
      generalize hX : List.mapM (m := Except PyErr) (β := List K) _ (List.range n) = X
      have hX' : X = .ok (m.map fun w => setMany D.parFix p.arg w) := hX.symm.trans hmap
      rw [hX']
  · intro i w v hw hv'
    rw [List.getElem?_map, hw, Option.map_some, Option.some.injEq] at hv'
    subst hv'
    have hwl : w.length = p.names.length := by
      obtain ⟨hi, he⟩ := List.getElem?_eq_some_iff.1 hw
      exact hsh.2 w (he ▸ List.getElem_mem hi)
    exact (overlayOn_of h p hp D.parFix hfix w hwl).2

end

/-- **C151**, hypotheses: in the example with a known mode `best` is copied three times, and two draws from the prior are returned as they are, or as vectors of all parameters. -/
theorem C151_copies_hypotheses_met :
    let ob : ParEx.O := { ParEx.solved with modeX := some [7, 8] }
    let dr : Draws Rat := { ParEx.draws with prior := fun n => .ok (List.replicate n [1/5, 2/5]), postMean := .ok [2, 3] }
    Spec.Shaped (dr.randn 3 2) 3 2 ∧
    (getPar ParEx.solver ParEx.decl dr ⟨none, none, false⟩ ob (.str "best") none false 3).2 = .ok (.mat (List.replicate 3 [7007 / 1000, 8008 / 1000])) ∧
    (getPar ParEx.solver ParEx.decl dr ⟨none, none, false⟩ ob (.str "post_mean") none false 2).2 = .ok (.mat (List.replicate 2 [2002 / 1000, 3003 / 1000])) ∧
    (getPar ParEx.solver ParEx.decl dr ⟨none, none, false⟩ ob (.str "prior") none false 2).2 = .ok (.cand (.mat [[1/5, 2/5], [1/5, 2/5]])) ∧
    (getPar ParEx.solver ParEx.decl dr ⟨none, none, false⟩ ob (.str "prior") none true 2).2 = .ok (.mat [[0, 2/5, 1/5], [0, 2/5, 1/5]]) := by
  refine ⟨⟨by decide +kernel, by decide +kernel⟩, ?_, ?_, ?_, ?_⟩ <;> decide +kernel

end Pydsge
