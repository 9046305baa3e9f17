import Verif.Model.Chains
import Mathlib.Data.List.Basic

/-!
# C113, C114, C115: chains and their densities
-/

set_option autoImplicit false
set_option linter.unusedSectionVars false
set_option linter.unusedSimpArgs false

namespace Pydsge

open Pydsge.Chains

variable {X α : Type}

/-- What was sampled: the densities are those of the draws, where `trans` is the transformation that the density applies first. -/
def Spec.Sampled (dens : X → α) (trans : X → X) (st : Stored X α) : Prop := st.lps = st.chain.map (·.map fun x => dens (trans x))

/-- The object reads `st` by default, and `trans` is the transformation it applies (also after `load_estim`, which changes neither the
reader nor `tune`). -/
structure Spec.Reads (W : World X α) (s : Obj X α) (st : Stored X α) (trans : X → X) : Prop where
  reader : readerOf W s none = .ok st
  now : ∀ b, s.bptrans = some b → trans = b.getD id
  later : s.bptrans = none → ∃ s' b, W.loadEstim s = .ok s' ∧ s'.bptrans = some b ∧ trans = b.getD id ∧
    readerOf W s' none = .ok st ∧ s'.tune = s.tune ∧ s'.fdictTune = s.fdictTune

theorem getChain_reads {W : World X α} {s : Obj X α} {st : Stored X α} {trans : X → X} (h : Spec.Reads W s st trans) :
    ∃ s', getChain W s none = (s', .ok (st.chain.map (·.map trans))) ∧ readerOf W s' none = .ok st ∧ s'.tune = s.tune ∧
      s'.fdictTune = s.fdictTune := by
  unfold getChain
  rw [h.reader]
  simp only
  cases hb : s.bptrans with
  | some b =>
    have := h.now b hb
    subst this
    cases b with
    | none => exact ⟨s, by simp, h.reader, rfl, rfl⟩
    | some f => exact ⟨s, rfl, h.reader, rfl, rfl⟩
  | none =>
    obtain ⟨s', b, h1, h2, h3, h4, h5, h6⟩ := h.later hb
    simp only [h1, h2]
    subst h3
    cases b with
    | none => exact ⟨s', by simp, h4, h5, h6⟩
    | some f => exact ⟨s', rfl, h4, h5, h6⟩

theorem sliceFrom_map {β γ : Type} (f : β → γ) (xs : List β) (i : Int) : sliceFrom (xs.map f) i = (sliceFrom xs i).map f := by
  unfold sliceFrom
  split_ifs <;> simp [List.map_drop]

theorem tuneOr_congr {s s' : Obj X α} (h1 : s'.tune = s.tune) (h2 : s'.fdictTune = s.fdictTune) (t : Option Int) :
    tuneOr s' t = tuneOr s t := by
  unfold tuneOr getTune
  rw [h1, h2]

theorem tuneOr_idem {s : Obj X α} {tune : Option Int} {t : Int} (h : tuneOr s tune = .ok t) : tuneOr s (some t) = .ok t := by
  have hg : ∀ u, getTune s = .ok u → tuneOr s (some u) = .ok u := by
    intro u hu
    unfold tuneOr
    simp only
    split_ifs
    · rfl
    · exact hu
  unfold tuneOr at h
  cases tune with
  | none => exact hg t h
  | some v =>
    simp only at h
    split_ifs at h with hv
    · cases h
      simp [tuneOr, hv]
    · exact hg t h

/-- How many steps count: the number asked for, unless there is none (or it is 0); then the one of the last run; then the one noted in the
settings. -/
def Spec.Counts (s : Obj X α) (tune : Option Int) (t : Nat) : Prop :=
  (tune = some (t : Int) ∧ t ≠ 0) ∨
  ((tune = none ∨ tune = some 0) ∧ (s.tune = some (t : Int) ∨ (s.tune = none ∧ s.fdictTune = some (t : Int))))

/-- `kept` are the last `t` steps of a chain (all, if there are fewer, or if `t` is 0). -/
def Spec.LastSteps {β : Type} (t : Nat) (chain kept : List β) : Prop :=
  ∃ dropped, chain = dropped ++ kept ∧ (t ≠ 0 → kept.length = min t chain.length) ∧ (t = 0 → dropped = [])

theorem tuneOr_counts {s : Obj X α} {tune : Option Int} {t : Nat} (h : Spec.Counts s tune t) : tuneOr s tune = .ok (t : Int) := by
  rcases h with ⟨rfl, ht⟩ | ⟨h1, h2⟩
  · simp [tuneOr, ht]
  · have hg : getTune s = .ok (t : Int) := by
      unfold getTune
      rcases h2 with h2 | ⟨h2, h3⟩
      · rw [h2]
      · rw [h2, h3]
    rcases h1 with rfl | rfl
    · exact hg
    · simpa [tuneOr] using hg

theorem lastSteps_sliceFrom {β : Type} (t : Nat) (xs : List β) : Spec.LastSteps t xs (sliceFrom xs (-(t : Int))) := by
  unfold sliceFrom
  by_cases ht : t = 0
  · subst ht
    exact ⟨[], by simp, by simp, by simp⟩
  · rw [if_neg (by omega)]
    refine ⟨xs.take (xs.length - t), by simp, fun _ => ?_, fun h => absurd h ht⟩
    simp only [Int.neg_neg, Int.toNat_natCast, List.length_drop]
    omega

/-- **C113** (holds if no chain is given): the draws that `mdd` and `mcmc_summary` use are the last ones of the stored chain, as parameter
vectors, and each density is the density of the draw at the same position. -/
theorem C113_densities_of_draws_partial {W : World X α} {s : Obj X α} {st : Stored X α} {trans : X → X} (dens : X → α)
    (h : Spec.Reads W s st trans) (hs : Spec.Sampled dens trans st) {tune : Option Int} {t : Nat} (hc : Spec.Counts s tune t) :
    ∃ kept, Spec.LastSteps t st.chain kept ∧
    (∃ c l, mddInputs W s none none tune = .ok (c, l) ∧ c = kept.flatten.map trans ∧ l = c.map dens) ∧
    (∃ c l, summaryInputs W s none tune = .ok (c, l) ∧ c = kept.map (·.map trans) ∧ l = c.map (·.map dens)) := by
  have ht := tuneOr_counts hc
  refine ⟨_, lastSteps_sliceFrom t st.chain, ?_⟩
  obtain ⟨s', g1, g2, g3, g4⟩ := getChain_reads h
  have hlp : getLogProb W s' none = .ok st.lps := by unfold getLogProb; rw [g2]
  have ht' : tuneOr s' (some (t : Int)) = .ok (t : Int) := by rw [tuneOr_congr g3 g4]; exact tuneOr_idem ht
  have ht'' : tuneOr s' tune = .ok (t : Int) := by rw [tuneOr_congr g3 g4]; exact ht
  constructor
  · refine ⟨_, _, ?_, rfl, rfl⟩
    unfold mddInputs
    simp only [ht, g1, hlp, ht', bind, Except.bind, pure, Except.pure]
    rw [hs, sliceFrom_map, sliceFrom_map]
    simp only [Except.ok.injEq, Prod.mk.injEq]
    constructor
    · rw [List.map_flatten]
    · simp [List.map_flatten, Function.comp_def]
  · refine ⟨_, _, ?_, rfl, rfl⟩
    unfold summaryInputs
    simp only [g1, ht'', hlp, bind, Except.bind, pure, Except.pure]
    rw [hs, sliceFrom_map, sliceFrom_map]
    simp only [Except.ok.injEq, Prod.mk.injEq, true_and, List.map_map]
    congr 1
    funext xs
    simp

/-- A model with a sampler that holds one step of two walkers, with densities `dens x = x`. -/
def Spec.exObj : Obj Int Int := ⟨some ⟨[[1, 2]], [[1, 2]]⟩, none, "p", "m", some none, some 1, none⟩
def Spec.exWorld : World Int Int := ⟨fun _ => none, fun a b => a ++ "/" ++ b, fun s => .ok s⟩

/-- C113: the hypotheses are met. -/
theorem C113_hypotheses_met : Spec.Reads Spec.exWorld Spec.exObj ⟨[[1, 2]], [[1, 2]]⟩ id ∧
    Spec.Sampled (id : Int → Int) id ⟨[[1, 2]], [[1, 2]]⟩ ∧ Spec.Counts Spec.exObj none 1 := by
  refine ⟨⟨rfl, ?_, ?_⟩, rfl, Or.inr ⟨Or.inl rfl, Or.inl rfl⟩⟩
  · intro b hb
    have : b = none := by
      have h2 : some (none : Option (Int → Int)) = some b := hb
      simpa using h2.symm
    rw [this]; rfl
  · intro hb; exact absurd hb (by simp [Spec.exObj])

/-- **C113** refuted: if a chain is given, its draws are combined with the densities of the stored chain. -/
theorem C113_densities_of_draws_refuted :
    mddInputs Spec.exWorld Spec.exObj (some [7, 8]) none none = .ok ([7, 8], [1, 2]) ∧
    summaryInputs Spec.exWorld Spec.exObj (some [[7, 8]]) none = .ok ([[7, 8]], [[1, 2]]) ∧
    ([7, 8] : List Int).map id ≠ [1, 2] := by
  refine ⟨?_, ?_, by decide⟩ <;> decide +kernel

/-- `mdd` knows exactly the documented methods (and the abbreviation `lp`). -/
theorem C113_methods (m : String) : (∃ r, mddMethod m = .ok r) ↔ m ∈ ["laplace", "lp", "hess", "mhm"] := by
  unfold mddMethod
  split_ifs with h1 h2 h3
  · simp; tauto
  · simp [h2]
  · simp [h3]
  · simp; tauto

/-! ## C114 -/

/-- The parameter vectors at which the posterior was evaluated in the last run. -/
def Spec.evaluated (f : X → X) (s : TState X) : Option (List (List X)) :=
  s.run.map fun r => if r.2 then r.1.map (·.map f) else r.1

def Spec.after (s : TState X) (evs : List (TEv X)) : TState X := evs.foldl TState.step s

/-- A fresh model, possibly loaded from a file with a stored setting. -/
def Spec.fresh (setting : Option Bool) : TState X := ⟨setting, none, none, none⟩

/-- The calls of `prep_estim` in a history that name a setting all name `b`. -/
def Spec.Sticks (b : Bool) (evs : List (TEv X)) : Prop := ∀ a, TEv.prep a ∈ evs → a = none ∨ a = some b

/-- **C114** (holds if the setting never changes): `get_chain` returns the parameter vectors at which the posterior was evaluated. -/
theorem C114_chain_of_parameters_partial (f : X → X) (b : Bool) (evs : List (TEv X)) (h : Spec.Sticks b evs)
    (setting : Option Bool) (hs : setting = some b ∨ (setting = none ∧ b = false)) :
    (Spec.after (Spec.fresh setting) evs).chain f = Spec.evaluated f (Spec.after (Spec.fresh setting) evs) := by
  have inv : ∀ (evs : List (TEv X)), Spec.Sticks b evs → ∀ s : TState X, s.setting.getD false = b → (s.attr = none ∨ s.attr = some b) →
      (s.lprob = none ∨ s.lprob = some b) → (∀ r, s.run = some r → r.2 = b) →
      (Spec.after s evs).setting.getD false = b ∧ ((Spec.after s evs).attr = none ∨ (Spec.after s evs).attr = some b) ∧
      (∀ r, (Spec.after s evs).run = some r → r.2 = b) := by
    intro evs
    induction evs with
    | nil => intro _ s h1 h2 h3 h4; exact ⟨h1, h2, h4⟩
    | cons e evs ih =>
      intro hst s h1 h2 h3 h4
      have hst' : Spec.Sticks b evs := fun a ha => hst a (List.mem_cons_of_mem _ ha)
      have hafter : Spec.after s (e :: evs) = Spec.after (s.step e) evs := rfl
      rw [hafter]
      have hprep : ∀ (s : TState X) a, s.setting.getD false = b → (a = none ∨ a = some b) → a.getD (s.setting.getD false) = b := by
        intro s a hs ha
        rcases ha with rfl | rfl
        · exact hs
        · rfl
      cases e with
      | prep a =>
        have hb := hprep s a h1 (hst a (by simp))
        exact ih hst' (s.prep a) (by simp [TState.prep, hb]) (.inr (by simp [TState.prep, hb])) (.inr (by simp [TState.prep, hb])) h4
      | mcmc d =>
        rcases h3 with h3 | h3
        · have hb := hprep s none h1 (.inl rfl)
          have hstep : s.step (.mcmc d) = { s.prep none with run := some (d, b) } := by
            simp only [Option.getD_none] at hb
            simp [TState.step, h3, TState.prep, hb]
          rw [hstep]
          simp only [Option.getD_none] at hb
          exact ih hst' _ (by simp [TState.prep, hb]) (.inr (by simp [TState.prep, hb])) (.inr (by simp [TState.prep, hb]))
            (by intro r hr; simp at hr; rw [← hr])
        · have hstep : s.step (.mcmc d) = { s with run := some (d, b) } := by
            simp [TState.step, h3]
          rw [hstep]
          exact ih hst' _ h1 h2 (.inr h3) (by intro r hr; simp at hr; rw [← hr])
      | getChain =>
        by_cases ha : s.attr = none
        · have hb := hprep s none h1 (.inl rfl)
          simp only [Option.getD_none] at hb
          have hstep : s.step .getChain = s.prep none := by simp [TState.step, ha]
          rw [hstep]
          exact ih hst' _ (by simp [TState.prep, hb]) (.inr (by simp [TState.prep, hb])) (.inr (by simp [TState.prep, hb])) h4
        · have hstep : s.step .getChain = s := by
            cases hA : s.attr with
            | none => exact absurd hA ha
            | some x => simp [TState.step, hA]
          rw [hstep]
          exact ih hst' s h1 h2 h3 h4
  obtain ⟨h1, h2, h3⟩ := inv evs h (Spec.fresh setting)
    (by rcases hs with rfl | ⟨rfl, rfl⟩ <;> rfl) (.inl rfl) (.inl rfl) (by simp [Spec.fresh])
  set s := Spec.after (Spec.fresh setting) evs
  unfold TState.chain Spec.evaluated
  have hattr : (s.step .getChain).attr = some b ∧ (s.step .getChain).run = s.run := by
    rcases h2 with h2 | h2
    · simp [TState.step, h2, TState.prep, h1]
    · simp [TState.step, h2]
  simp only [hattr.1, hattr.2]
  cases hr : s.run with
  | none => rfl
  | some r =>
    have := h3 r hr
    simp only [Option.map_some, this, Option.some.injEq]

example : Spec.Sticks true [(.prep (some true) : TEv Int), .mcmc [[1]], .prep none] := by
  intro a ha
  simp at ha
  rcases ha with rfl | rfl
  · exact .inr rfl
  · exact .inl rfl

/-- **C114** refuted: after `prep_estim(use_prior_transform=True)`, `mcmc()`, `prep_estim(use_prior_transform=False)`, `get_chain` returns
the draws before the transformation. -/
theorem C114_chain_of_parameters_refuted :
    (Spec.after (Spec.fresh none) [.prep (some true), .mcmc [[1]], .prep (some false)]).chain (fun x : Int => x + 10) = some [[1]] ∧
    Spec.evaluated (fun x : Int => x + 10) (Spec.after (Spec.fresh none) [.prep (some true), .mcmc [[1]], .prep (some false)]) = some [[11]] := by
  decide

/-! ## C115 -/

/-- **C115**: the file that `posterior2csv` writes has one row for each estimated parameter, in order, that contains the values of this
parameter in the kept draws, walker by walker; it raises if the number of names differs from that of parameters. -/
theorem C115_posterior_csv {K : Type} {d : Nat} {W : World (Fin d → K) α} {s : Obj (Fin d → K) α} {st : Stored (Fin d → K) α}
    {trans : (Fin d → K) → Fin d → K} (h : Spec.Reads W s st trans) (names : List String) {tune : Option Int} {t : Nat}
    (hc : Spec.Counts s tune t) :
    ∃ kept, Spec.LastSteps t st.chain kept ∧
    (names.length = d → ∃ rows, posterior2csv W s names tune = .ok rows ∧ rows.length = d ∧
      ∀ (i : Fin d) name, names[i.val]? = some name →
        rows[i.val]? = some (name, kept.flatten.map fun x => trans x i)) ∧
    (names.length ≠ d → posterior2csv W s names tune = .error .valueError) := by
  obtain ⟨s', g1, -, -, -⟩ := getChain_reads h
  have ht := tuneOr_counts hc
  refine ⟨_, lastSteps_sliceFrom t st.chain, ?_⟩
  unfold posterior2csv
  simp only [ht, g1, bind, Except.bind, pure, Except.pure]
  constructor
  · intro hn
    rw [if_neg (by simpa using hn)]
    refine ⟨_, rfl, by simp [hn], fun i name hi => ?_⟩
    rw [List.getElem?_zip_eq_some]
    refine ⟨hi, ?_⟩
    rw [List.getElem?_ofFn, dif_pos i.isLt]
    rw [sliceFrom_map, ← List.map_flatten, List.map_map]
    rfl
  · intro hn
    rw [if_pos hn]
    rfl

/-- Which chain is read: the file that is asked for; else the one of the sampler that ran last in this session; else the file that is noted in
the settings; else the default file of the model. A file that does not exist raises a `NameError`. -/
theorem C113_source (W : World X α) (s : Obj X α) :
    (∀ f, f ≠ "" → readerOf W s (some f) = match W.files f with
      | none => .error .nameError
      | some st => .ok st) ∧
    (∀ st, s.sampler = some st → readerOf W s none = .ok st) ∧
    (∀ f, s.sampler = none → s.backendFile = some f → f ≠ "" → readerOf W s none = readerOf W s (some f)) ∧
    (s.sampler = none → s.backendFile = none → W.join s.path (s.name ++ "_sampler.h5") ≠ "" →
      readerOf W s none = readerOf W s (some (W.join s.path (s.name ++ "_sampler.h5")))) := by
  refine ⟨?_, ?_, ?_, ?_⟩
  · intro f hf
    unfold readerOf
    simp [hf]
    cases W.files f <;> rfl
  · intro st hst
    unfold readerOf
    simp [hst]
  · intro f h1 h2 hf
    unfold readerOf
    simp [h1, h2, hf]
  · intro h1 h2 hf
    unfold readerOf
    simp [h1, h2, hf]

end Pydsge
