import Verif.Model.Info
import Verif.Props.Chains

/-!
# C166: `info` tells about any model and changes nothing
-/

set_option autoImplicit false
set_option linter.unusedSectionVars false
set_option linter.unusedSimpArgs false

namespace Pydsge

open Pydsge.Chains Pydsge.Info

variable {K α : Type} {d : Nat}

/-- Title, date of the last sampling and description. -/
def Spec.infoHead (name : String) (date : Option String) (descr : String) : String :=
  match date with
  | some t => "Title: " ++ name ++ "\n" ++ ("Date: " ++ t ++ "\n") ++ "Description: " ++ descr ++ "\n"
  | none => "Title: " ++ name ++ "\n" ++ "" ++ "Description: " ++ descr ++ "\n"

/-- The size of the chain: number of parameters, walkers, steps, and the number of steps that are kept. -/
def Spec.infoChain (d walkers steps : Nat) (kept : Int) : String :=
  "Parameters: " ++ toString d ++ "\n" ++ "Chains: " ++ toString walkers ++ "\n" ++ "Last " ++ toString kept ++ " of " ++ toString steps ++ " samples\n"

theorem header_eq {dt : Option String} (hdt : dt ≠ some "") (name descr : String) : header name (dt.getD "") descr = Spec.infoHead name dt descr := by
  cases dt with
  | none => simp only [header, Spec.infoHead, Option.getD_none, if_true]
  | some u =>
    have : u ≠ "" := fun hu => hdt (by rw [hu])
    simp only [header, Spec.infoHead, Option.getD_some, if_neg this]

/-- **C166 (partial).** For a model with an estimation in memory (a sampler or a file with at least one step, the transformation known, and the number of kept steps
known) `info` gives the full text and leaves the model. Missing: models that have not been estimated (`C166_not_estimated_refuted`) and models that have
been loaded (`C166_prepares_refuted`). -/
theorem C166_info_partial (W : World (Fin d → K) α) (tx : Texts) (s : Obj (Fin d → K) α) {name descr : String} {st : Stored (Fin d → K) α}
    {b : Option ((Fin d → K) → (Fin d → K))} {walkers : Nat} {t : Int} (hn : tx.name = some name) (hd : tx.description = some descr)
    (hdt : tx.datetime ≠ some "") (hr : readerOf W s none = .ok st) (hb : s.bptrans = some b) (hst : st.chain ≠ [])
    (hw : ∀ row ∈ st.chain, row.length = walkers) (ht : getTune s = .ok t) :
    info W tx s = (s, .ok (Spec.infoHead name tx.datetime descr ++ Spec.infoChain d walkers st.chain.length t)) := by
  have key : ∀ f : (Fin d → K) → (Fin d → K), (∀ c, getChain W s none = (s, .ok c) → c = st.chain.map (·.map f) →
      chainPart W s = (s, .ok (chainText d walkers st.chain.length t))) := by
    intro f c hc hcf
    unfold chainPart
    rw [hc]
    cases hch : st.chain with
    | nil => exact absurd hch hst
    | cons row rows =>
      rw [hcf, hch]
      simp only [List.map_cons, ht, List.length_map, List.length_cons]
      rw [hw row (by rw [hch]; simp)]
  have hcp : chainPart W s = (s, .ok (chainText d walkers st.chain.length t)) := by
    cases b with
    | none =>
      refine key id st.chain ?_ (by simp)
      unfold getChain
      rw [hr, hb]
    | some f =>
      refine key f _ ?_ rfl
      unfold getChain
      rw [hr, hb]
  have hc : chainText d walkers st.chain.length t = Spec.infoChain d walkers st.chain.length t := by unfold chainText Spec.infoChain; exact Eq.refl _
  simp only [info, attrOr, hn, hd, hcp, header_eq hdt, hc]

/-- The same for a model with a sampler or file without steps, or for which the number of kept steps is not known: title, date and description. -/
theorem C166_no_chain_partial (W : World (Fin d → K) α) (tx : Texts) (s : Obj (Fin d → K) α) {name descr : String} {st : Stored (Fin d → K) α}
    {b : Option ((Fin d → K) → (Fin d → K))} (hn : tx.name = some name) (hd : tx.description = some descr) (hdt : tx.datetime ≠ some "")
    (hr : readerOf W s none = .ok st) (hb : s.bptrans = some b) (hst : st.chain = [] ∨ (s.tune = none ∧ s.fdictTune = none)) :
    info W tx s = (s, .ok (Spec.infoHead name tx.datetime descr)) := by
  have hcp : chainPart W s = (s, .ok "") := by
    have hg : ∃ c, getChain W s none = (s, .ok c) ∧ (st.chain = [] → c = []) := by
      unfold getChain
      rw [hr, hb]
      cases b with
      | none => exact ⟨_, rfl, id⟩
      | some f => exact ⟨_, rfl, fun h => by rw [h]; rfl⟩
    obtain ⟨c, hc, hce⟩ := hg
    unfold chainPart
    rw [hc]
    cases c with
    | nil => rfl
    | cons row rows =>
      rcases hst with h | ⟨h1, h2⟩
      · exact absurd (hce h) (by simp)
      · simp only [getTune, h1, h2]
  simp only [info, attrOr, hn, hd, hcp, header_eq hdt, String.append_empty]

/-- **C166 (fails for models that have not been estimated).** Without sampler and file, `get_chain` raises `NameError`, which `info` does not catch: there is no
text, not even the title. -/
theorem C166_not_estimated_refuted (W : World (Fin d → K) α) (tx : Texts) (s : Obj (Fin d → K) α) {name descr : String} (hn : tx.name = some name)
    (hd : tx.description = some descr) (hs : s.sampler = none) (hf : s.backendFile = none)
    (hj : W.join s.path (s.name ++ "_sampler.h5") ≠ "") (hw : W.files (W.join s.path (s.name ++ "_sampler.h5")) = none) :
    info W tx s = (s, .error .nameError) := by
  have hr : readerOf W s none = .error .nameError := by
    unfold readerOf
    simp only [hs, hf, hw, if_neg hj, ne_eq, not_true_eq_false, false_and, if_false]
  unfold info attrOr chainPart getChain
  rw [hn, hd, hr]

/-- **C166 (fails for models that have been loaded).** If the transformation of the draws is not known, `info` runs `prep_estim`: the model is then the
prepared one, and an exception of the preparation (other than `AttributeError` and `KeyError`) is passed on. -/
theorem C166_prepares_refuted (W : World (Fin d → K) α) (tx : Texts) (s : Obj (Fin d → K) α) {name descr : String} {st : Stored (Fin d → K) α}
    (hn : tx.name = some name) (hd : tx.description = some descr) (hr : readerOf W s none = .ok st) (hb : s.bptrans = none) :
    (∀ s', W.loadEstim s = .ok s' → (info W tx s).1 = s') ∧
    (∀ e, W.loadEstim s = .error e → e ≠ .attributeError → e ≠ .keyError → info W tx s = (s, .error e)) := by
  constructor
  · intro s' hl
    have hc : ∃ r, getChain W s none = (s', r) := by
      unfold getChain
      rw [hr, hb, hl]
      simp only
      cases s'.bptrans with
      | none => exact ⟨_, rfl⟩
      | some b => cases b <;> exact ⟨_, rfl⟩
    obtain ⟨r, hc⟩ := hc
    have hcp : ∃ c, chainPart W s = (s', c) := by
      unfold chainPart
      rw [hc]
      split
      · rename_i h; cases h; exact ⟨_, rfl⟩
      · rename_i h; cases h; exact ⟨_, rfl⟩
      · rename_i h; cases h; exact ⟨_, rfl⟩
      · rename_i h; cases h; exact ⟨_, rfl⟩
      · rename_i h
        cases h
        split <;> exact ⟨_, rfl⟩
    obtain ⟨c, hcp⟩ := hcp
    unfold info attrOr
    rw [hn, hd, hcp]
    cases c <;> rfl
  · intro e hl h1 h2
    have hcp : chainPart W s = (s, .error e) := by
      unfold chainPart getChain
      rw [hr, hb]
      simp only [hl]
    unfold info attrOr
    rw [hn, hd, hcp]

/-- If the preparation succeeds and gives the transformation, the text is complete; the number of kept steps is that of the prepared model. -/
theorem C166_prepared_text (W : World (Fin d → K) α) (tx : Texts) (s s' : Obj (Fin d → K) α) {name descr : String} {st : Stored (Fin d → K) α}
    {b : Option ((Fin d → K) → (Fin d → K))} {walkers : Nat} {t : Int} (hn : tx.name = some name) (hd : tx.description = some descr)
    (hdt : tx.datetime ≠ some "") (hr : readerOf W s none = .ok st) (hb : s.bptrans = none) (hl : W.loadEstim s = .ok s') (hb' : s'.bptrans = some b)
    (hst : st.chain ≠ []) (hw : ∀ row ∈ st.chain, row.length = walkers) (ht : getTune s' = .ok t) :
    info W tx s = (s', .ok (Spec.infoHead name tx.datetime descr ++ Spec.infoChain d walkers st.chain.length t)) := by
  have hcp : chainPart W s = (s', .ok (chainText d walkers st.chain.length t)) := by
    obtain ⟨f, hc⟩ : ∃ f : (Fin d → K) → (Fin d → K), getChain W s none = (s', .ok (st.chain.map (·.map f))) := by
      unfold getChain
      rw [hr, hb]
      simp only [hl, hb']
      cases b with
      | none => exact ⟨id, by simp⟩
      | some f => exact ⟨f, rfl⟩
    unfold chainPart
    rw [hc]
    cases hch : st.chain with
    | nil => exact absurd hch hst
    | cons row rows =>
      simp only [List.map_cons, ht, List.length_map, List.length_cons]
      rw [hw row (by rw [hch]; simp)]
  have hc : chainText d walkers st.chain.length t = Spec.infoChain d walkers st.chain.length t := by unfold chainText Spec.infoChain; exact Eq.refl _
  simp only [info, attrOr, hn, hd, hcp, header_eq hdt, hc]

/-! ## Cases -/

/-- A model just read, a model that was loaded (its chain is in a file), and an estimated model with two steps of two walkers. -/
def InfoEx.W : World (Fin 1 → Nat) Nat :=
  ⟨fun f => if f = "p/m_sampler.h5" then some ⟨[[fun _ => 1, fun _ => 2, fun _ => 3]], [[0, 0, 0]]⟩ else none, fun a b => a ++ "/" ++ b,
    fun s => .ok { s with bptrans := some none }⟩

def InfoEx.tx : Texts := ⟨some "m", none, some "a model", none, none⟩
def InfoEx.fresh : Obj (Fin 1 → Nat) Nat := ⟨none, none, "q", "m", none, none, none⟩
def InfoEx.loaded : Obj (Fin 1 → Nat) Nat := ⟨none, none, "p", "m", none, none, some 1⟩
def InfoEx.estimated : Obj (Fin 1 → Nat) Nat := ⟨some ⟨[[fun _ => 1, fun _ => 2], [fun _ => 1, fun _ => 2]], []⟩, none, "p", "m", some none, some 1, none⟩

theorem C166_hypotheses_met :
    info InfoEx.W InfoEx.tx InfoEx.fresh = (InfoEx.fresh, .error .nameError) ∧
    (info InfoEx.W InfoEx.tx InfoEx.loaded).1 ≠ InfoEx.loaded ∧
    info InfoEx.W InfoEx.tx InfoEx.estimated =
      (InfoEx.estimated, .ok "Title: m\nDescription: a model\nParameters: 1\nChains: 2\nLast 1 of 2 samples\n") := by
  refine ⟨C166_not_estimated_refuted _ _ _ rfl rfl rfl rfl (by decide) (by decide), ?_, ?_⟩
  · rw [(C166_prepares_refuted InfoEx.W InfoEx.tx InfoEx.loaded rfl rfl (st := ⟨[[fun _ => 1, fun _ => 2, fun _ => 3]], [[0, 0, 0]]⟩)
      (by rfl) rfl).1 _ rfl]
    intro h
    have := congrArg Obj.bptrans h
    cases this
  · exact (C166_info_partial InfoEx.W InfoEx.tx InfoEx.estimated rfl rfl (by decide)
      (st := ⟨[[fun _ => 1, fun _ => 2], [fun _ => 1, fun _ => 2]], []⟩) (walkers := 2) (t := 1) (by rfl) rfl (by simp) (by simp) rfl).trans
      (by congr 1)

end Pydsge
