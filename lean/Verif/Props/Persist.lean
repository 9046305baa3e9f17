import Verif.Model.Persist
import Mathlib.Logic.Function.Basic

/-!
# C83, C84: writing model files, saving and loading models
-/

set_option autoImplicit false
set_option linter.unusedSectionVars false
set_option linter.unusedSimpArgs false

namespace Pydsge

open Persist Files

section
variable {B D X : Type}

/-- What is assumed of the libraries: unpickling a pickled model raises or gives the model back, data come back, and pickles do not print as
`None`. -/
structure PickleContract (lib : Lib B D X) : Prop where
  model : ∀ b de fd, lib.loadsModel (.obj (lib.dumpModel b de fd)) = none ∨ lib.loadsModel (.obj (lib.dumpModel b de fd)) = some (b, de)
  data : ∀ d, lib.loadsData (.obj (lib.dumpData d)) = some d
  modelStr : ∀ b de fd, lib.show' (lib.dumpModel b de fd) ≠ "None"
  dataStr : ∀ d, lib.show' (lib.dumpData d) ≠ "None"

/-- Parsed models in the cache are what `parse` makes of their texts (see C42), and no functions file is the text `None` (`load` mistakes a
model without functions file for one with that text). -/
def CacheFits (lib : Lib B D X) (cache : List (Cached B X)) : Prop :=
  ∀ c ∈ cache, lib.parse c.yaml c.ffile = .ok c.body ∧ c.ffile ≠ some "None"

/-- The descriptions of the models of these texts in the caches. -/
def Spec.CachedDescr (caches : List (List (Cached B X))) (mtxt : String) (ftxt : Option String) (de : Option (Val X)) : Prop :=
  ∃ cache ∈ caches, ∃ c ∈ cache, c.yaml = mtxt ∧ c.ffile = ftxt ∧ de = c.description

/-- What holds of a model read from the texts `mtxt` and `ftxt`, whatever has happened to it since in processes with these caches. -/
structure Kept (lib : Lib B D X) (caches : List (List (Cached B X))) (mtxt : String) (ftxt : Option String) (m : Mod B D X) : Prop where
  body : lib.parse mtxt ftxt = .ok m.body
  yaml : ∃ v, m.fdict "yaml_raw" = some v ∧ v.str lib = mtxt
  ffile : (m.fdict "ffile_raw").map (Val.str lib) = ftxt
  dump : ∃ de fd, m.fdict "model_dump" = some (.obj (lib.dumpModel m.body de fd)) ∧ (de = none ∨ Spec.CachedDescr caches mtxt ftxt de)
  data : m.fdict "data" = m.data.map fun d => .obj (lib.dumpData d)
  raw : m.rawYaml = none

theorem kept_ofRead (lib : Lib B D X) (caches : List (List (Cached B X))) (mtxt : String) (ftxt : Option String) (modName : B → String) (dir : Path) (m : Mod B D X)
    (h : ofRead lib mtxt ftxt modName dir = .ok m) : Kept lib caches mtxt ftxt m := by
  unfold ofRead at h
  cases hp : lib.parse mtxt ftxt with
  | error e => simp [hp] at h
  | ok b =>
    cases ftxt with
    | none =>
      simp only [hp, Except.ok.injEq] at h
      subst h
      exact ⟨hp, ⟨.txt mtxt, by simp [FDict.set], rfl⟩, by simp [FDict.set], ⟨none, _, by simp [FDict.set]; rfl, Or.inl rfl⟩, by simp [FDict.set], rfl⟩
    | some t =>
      simp only [hp, Except.ok.injEq] at h
      subst h
      exact ⟨hp, ⟨.txt mtxt, by simp [FDict.set], rfl⟩, by simp [FDict.set, Val.str], ⟨none, _, by simp [FDict.set]; rfl, Or.inl rfl⟩, by simp [FDict.set], rfl⟩

/-- `metaDict` changes only its own five keys and the name. -/
theorem metaDict_other (m : Mod B D X) (k : String) (h : k ∉ ["description", "backend_file", "tune", "name", "filter_R", "filter_P"]) :
    metaDict m k = m.fdict k := by
  simp only [List.mem_cons, List.not_mem_nil, or_false, not_or] at h
  obtain ⟨h1, h2, h3, h4, h5, h6⟩ := h
  unfold metaDict
  rcases m.filter with _ | ⟨_ | R, _ | P⟩ <;> rcases m.description with _ | a <;> rcases m.backendFile with _ | b <;>
    rcases m.tune with _ | c <;> simp [FDict.setIf, FDict.set, h1, h2, h3, h4, h5, h6]

theorem metaDict_name (m : Mod B D X) : metaDict m "name" = some (.txt m.name) := by
  unfold metaDict
  rcases m.filter with _ | ⟨_ | R, _ | P⟩ <;> simp [FDict.set]

theorem metaDict_tune (m : Mod B D X) : metaDict m "tune" = (m.tune.map some).getD (m.fdict "tune") := by
  unfold metaDict
  rcases m.filter with _ | ⟨_ | R, _ | P⟩ <;> rcases m.tune with _ | c <;> rcases m.description with _ | a <;>
    rcases m.backendFile with _ | b <;> simp [FDict.setIf, FDict.set]

theorem metaDict_description (m : Mod B D X) :
    metaDict m "description" = (m.description.map some).getD (m.fdict "description") := by
  unfold metaDict
  rcases m.filter with _ | ⟨_ | R, _ | P⟩ <;> rcases m.tune with _ | c <;> rcases m.description with _ | a <;>
    rcases m.backendFile with _ | b <;> simp [FDict.setIf, FDict.set]

theorem kept_meta (lib : Lib B D X) (caches : List (List (Cached B X))) (mtxt : String) (ftxt : Option String) (m : Mod B D X) (h : Kept lib caches mtxt ftxt m) :
    Kept lib caches mtxt ftxt { m with fdict := metaDict m } := by
  obtain ⟨h1, h2, h3, h4, h5, h6⟩ := h
  refine ⟨h1, ?_, ?_, ?_, ?_, h6⟩
  · rw [show ({ m with fdict := metaDict m } : Mod B D X).fdict "yaml_raw" = m.fdict "yaml_raw" from metaDict_other m _ (by decide)]
    exact h2
  · rw [show ({ m with fdict := metaDict m } : Mod B D X).fdict "ffile_raw" = m.fdict "ffile_raw" from metaDict_other m _ (by decide)]
    exact h3
  · rw [show ({ m with fdict := metaDict m } : Mod B D X).fdict "model_dump" = m.fdict "model_dump" from metaDict_other m _ (by decide)]
    exact h4
  · rw [show ({ m with fdict := metaDict m } : Mod B D X).fdict "data" = m.fdict "data" from metaDict_other m _ (by decide)]
    exact h5

/-- Values come back from an archive, except that what prints as `None` comes back as `None`. -/
def backFrom (lib : Lib B D X) (v : Val X) : Val X := if v.str lib = "None" then .none else v

theorem backFrom_str (lib : Lib B D X) (v : Val X) : (backFrom lib v).str lib = v.str lib := by
  unfold backFrom
  split_ifs with h
  · rw [h]; rfl
  · rfl

theorem reparse_kept (lib : Lib B D X) (cache : List (Cached B X)) (hcache : CacheFits lib cache) (mtxt : String) (ftxt : Option String)
    (b : B) (hb : lib.parse mtxt ftxt = .ok b) (fd : FDict X) (hf : (fd "ffile_raw").map (Val.str lib) = ftxt) :
    ∃ d, reparse lib cache fd mtxt = .ok (b, d) := by
  unfold reparse
  cases hfind : cache.find? (fun c => decide (c.yaml = mtxt) && decide (c.ffile = some (Val.str lib ((fd "ffile_raw").getD .none)))) with
  | some c =>
    have hm := List.mem_of_find?_eq_some hfind
    have hp := List.find?_some hfind
    simp only [Bool.and_eq_true, decide_eq_true_eq] at hp
    have hc := (hcache c hm).1
    simp only [hfind]
    cases hv : fd "ffile_raw" with
    | none =>
      exfalso
      rw [hv] at hp
      exact (hcache c hm).2 hp.2
    | some v =>
      rw [hv] at hf hp
      simp only [Option.map_some, Option.getD_some] at hf hp
      rw [hp.1, hp.2, hf, hb] at hc
      exact ⟨_, by rw [Except.ok.inj hc]⟩
  | none =>
    simp only [hfind, hf, hb]
    exact ⟨_, rfl⟩

/-- Loading what was saved, for a model with data. -/
theorem load_saved (lib : Lib B D X) (hc : PickleContract lib) (caches : List (List (Cached B X))) (cache : List (Cached B X))
    (hin : cache ∈ caches) (hcache : CacheFits lib cache) (mtxt : String)
    (ftxt : Option String) (st : Store X) (m : Mod B D X) (h : Kept lib caches mtxt ftxt m) (d : D) (hd : m.data = some d) (f : Option Path)
    (force : Bool) :
    ∃ m', load lib cache (saveMeta st m f).1 (savezName (metaName m f)) force = .ok m' ∧ Kept lib caches mtxt ftxt m' ∧ m'.body = m.body ∧
      m'.name = m.name ∧ m'.data = some d ∧ m'.tune = none ∧
      (m'.description = none ∨ Spec.CachedDescr caches mtxt ftxt m'.description) ∧
      ∀ k, k ≠ "model_dump" → m'.fdict k = (metaDict m k).map (backFrom lib) := by
  have hk := kept_meta lib caches mtxt ftxt m h
  obtain ⟨h1, ⟨y, hy, hys⟩, h3, ⟨de0, fd0, h4, h4'⟩, h5, h6⟩ := hk
  simp only at hy h1 h3 h4 h5 h6
  rw [hd] at h5
  have hname := metaDict_name m
  have hst : (saveMeta st m f).1 (savezName (metaName m f)) = some (metaDict m) := by simp [saveMeta]
  have key : ∀ b descr, b = m.body →
      (descr = none ∨ Spec.CachedDescr caches mtxt ftxt descr) →
      let fd1 := (metaDict m).set "model_dump" (.obj (lib.dumpModel b descr (metaDict m)))
      let fd2 : FDict X := fun k => (fd1 k).map fun v => if Val.str lib v = "None" then .none else v
      let m' : Mod B D X := ⟨b, fd2, m.name, dirname (savezName (metaName m f)), descr, none, none, none, some d, none⟩
      Kept lib caches mtxt ftxt m' ∧ m'.body = m.body ∧ m'.name = m.name ∧ m'.data = some d ∧ m'.tune = none ∧
      (m'.description = none ∨ Spec.CachedDescr caches mtxt ftxt m'.description) ∧
      ∀ k, k ≠ "model_dump" → m'.fdict k = (metaDict m k).map (backFrom lib) := by
    intro b descr hb hdescr fd1 fd2 m'
    have hfd : ∀ k, k ≠ "model_dump" → m'.fdict k = (metaDict m k).map (backFrom lib) := by
      intro k hk
      show (fd1 k).map _ = _
      simp only [fd1, FDict.set, hk, if_false]
      rfl
    refine ⟨⟨?_, ?_, ?_, ?_, ?_, rfl⟩, hb, rfl, rfl, rfl, hdescr, hfd⟩
    · rw [h1]; simp only [m', hb]
    · refine ⟨backFrom lib y, ?_, ?_⟩
      · rw [hfd _ (by decide), hy]; rfl
      · rw [backFrom_str]; exact hys
    · rw [hfd _ (by decide), Option.map_map]
      rw [show Val.str lib ∘ backFrom lib = Val.str lib from funext (backFrom_str lib)]
      exact h3
    · refine ⟨descr, metaDict m, ?_, hdescr⟩
      show (fd1 "model_dump").map _ = _
      have : (Val.str lib (.obj (lib.dumpModel b descr (metaDict m)))) ≠ "None" := hc.modelStr b _ _
      simp [fd1, FDict.set, this, m']
    · rw [hfd _ (by decide), h5]
      have : (Val.str lib (.obj (lib.dumpData d))) ≠ "None" := hc.dataStr d
      simp [backFrom, this, m']
  unfold load
  simp only [hst, hy, hname, h5, Option.map_some, hc.data, hys]
  have hrep : ∃ descr, reparse lib cache (metaDict m) mtxt = .ok (m.body, descr) ∧
      (descr = none ∨ Spec.CachedDescr caches mtxt ftxt descr) := by
    obtain ⟨descr, hr⟩ := reparse_kept lib cache hcache mtxt ftxt m.body h1 (metaDict m) h3
    refine ⟨descr, hr, ?_⟩
    unfold reparse at hr
    cases hfind : cache.find? (fun c => decide (c.yaml = mtxt) && decide (c.ffile = some (Val.str lib ((metaDict m "ffile_raw").getD .none)))) with
    | some c =>
      have hm := List.mem_of_find?_eq_some hfind
      have hp := List.find?_some hfind
      simp only [Bool.and_eq_true, decide_eq_true_eq] at hp
      simp only [hfind, Except.ok.injEq, Prod.mk.injEq] at hr
      refine Or.inr ⟨cache, hin, c, hm, hp.1, ?_, hr.2.symm⟩
      cases hv : metaDict m "ffile_raw" with
      | none =>
        rw [hv] at hp
        exact absurd hp.2 (hcache c hm).2
      | some v =>
        rw [hv] at hp h3
        rw [hp.2, ← h3]; rfl
    | none =>
      simp only [hfind, h3, h1, Except.ok.injEq, Prod.mk.injEq] at hr
      exact Or.inl hr.2.symm
  cases force with
  | true =>
    obtain ⟨descr, hr, hdescr⟩ := hrep
    simp only [if_true, hr]
    exact ⟨_, rfl, key m.body descr rfl hdescr⟩
  | false =>
    simp only [Bool.false_eq_true, if_false, h4, Option.bind_some]
    rcases hc.model m.body de0 fd0 with hl | hl
    · obtain ⟨descr, hr, hdescr⟩ := hrep
      simp only [hl, hr]
      exact ⟨_, rfl, key m.body descr rfl hdescr⟩
    · simp only [hl]
      exact ⟨_, rfl, key m.body de0 rfl h4'⟩

/-- Without data, loading fails whatever was saved. -/
theorem load_no_data (lib : Lib B D X) (caches : List (List (Cached B X))) (cache : List (Cached B X)) (hcache : CacheFits lib cache) (mtxt : String) (ftxt : Option String)
    (st : Store X) (m : Mod B D X) (h : Kept lib caches mtxt ftxt m) (hd : m.data = none) (hc : PickleContract lib) (f : Option Path)
    (force : Bool) :
    load lib cache (saveMeta st m f).1 (savezName (metaName m f)) force = .error .keyError := by
  have hk := kept_meta lib caches mtxt ftxt m h
  obtain ⟨h1, ⟨y, hy, hys⟩, h3, ⟨de0, fd0, h4, h4'⟩, h5, h6⟩ := hk
  simp only at hy h1 h3 h4 h5 h6
  rw [hd] at h5
  have hname := metaDict_name m
  have hst : (saveMeta st m f).1 (savezName (metaName m f)) = some (metaDict m) := by simp [saveMeta]
  obtain ⟨descr, hr⟩ := reparse_kept lib cache hcache mtxt ftxt m.body h1 (metaDict m) h3
  unfold load
  simp only [hst, hy, hname, h5, Option.map_none, hys]
  cases force with
  | true => simp only [if_true, hr]
  | false =>
    simp only [Bool.false_eq_true, if_false, h4, Option.bind_some]
    rcases hc.model m.body de0 fd0 with hl | hl
    · simp only [hl, hr]
    · simp only [hl]

theorem kept_set (lib : Lib B D X) (caches : List (List (Cached B X))) (mtxt : String) (ftxt : Option String) (m : Mod B D X) (h : Kept lib caches mtxt ftxt m) (k : String) (v : Val X)
    (hk : k ∉ ["yaml_raw", "ffile_raw", "model_dump", "data"]) : Kept lib caches mtxt ftxt { m with fdict := m.fdict.set k v } := by
  simp only [List.mem_cons, List.not_mem_nil, or_false, not_or] at hk
  obtain ⟨k1, k2, k3, k4⟩ := hk
  obtain ⟨h1, h2, h3, h4, h5, h6⟩ := h
  refine ⟨h1, ?_, ?_, ?_, ?_, h6⟩
  · simpa [FDict.set, Ne.symm k1] using h2
  · simpa [FDict.set, Ne.symm k2] using h3
  · simpa [FDict.set, Ne.symm k3] using h4
  · simpa [FDict.set, Ne.symm k4] using h5

theorem kept_step (lib : Lib B D X) (hc : PickleContract lib) (caches : List (List (Cached B X)))
    (hcaches : ∀ cache ∈ caches, CacheFits lib cache) (mtxt : String)
    (ftxt : Option String) (st : Store X) (m : Mod B D X) (h : Kept lib caches mtxt ftxt m) (op : Op B D X)
    (hop : ∀ f force cache, op = .reload f force cache → cache ∈ caches) :
    Kept lib caches mtxt ftxt (step lib st m op).2 := by
  cases op with
  | putData d obs =>
    have h2 := kept_set lib caches mtxt ftxt m h "obs" (.obj obs) (by decide)
    obtain ⟨a1, a2, a3, a4, a5, a6⟩ := h2
    refine ⟨a1, ?_, ?_, ?_, ?_, a6⟩
    · simpa [step, putData, FDict.set] using a2
    · simpa [step, putData, FDict.set] using a3
    · simpa [step, putData, FDict.set] using a4
    · simp [step, putData, FDict.set]
  | setting k v =>
    by_cases hk : k ∈ reserved
    · simpa only [step, if_pos hk] using h
    · simp only [step, if_neg hk]
      refine kept_set lib caches mtxt ftxt m h k v ?_
      intro hk'
      apply hk
      revert hk'
      simp only [List.mem_cons, List.not_mem_nil, or_false, reserved]
      tauto
  | name s => exact ⟨h.1, h.2, h.3, h.4, h.5, h.6⟩
  | path s => exact ⟨h.1, h.2, h.3, h.4, h.5, h.6⟩
  | description v => exact ⟨h.1, h.2, h.3, h.4, h.5, h.6⟩
  | tune v => exact ⟨h.1, h.2, h.3, h.4, h.5, h.6⟩
  | filter v => exact ⟨h.1, h.2, h.3, h.4, h.5, h.6⟩
  | save f => exact kept_meta lib caches mtxt ftxt m h
  | reload f force cache =>
    have hin := hop f force cache rfl
    have hcache := hcaches cache hin
    cases hd : m.data with
    | none =>
      simp only [step, load_no_data lib caches cache hcache mtxt ftxt st m h hd hc f force]
      exact kept_meta lib caches mtxt ftxt m h
    | some d =>
      obtain ⟨m', hl, hk, _⟩ := load_saved lib hc caches cache hin hcache mtxt ftxt st m h d hd f force
      simp only [step, hl]
      exact hk

theorem kept_run (lib : Lib B D X) (hc : PickleContract lib) (caches : List (List (Cached B X)))
    (hcaches : ∀ cache ∈ caches, CacheFits lib cache) (mtxt : String)
    (ftxt : Option String) (ops : List (Op B D X)) (hops : ∀ f force cache, Op.reload f force cache ∈ ops → cache ∈ caches) (st : Store X) (m : Mod B D X) (h : Kept lib caches mtxt ftxt m) :
    Kept lib caches mtxt ftxt (run lib st m ops).2 := by
  unfold run
  induction ops generalizing st m with
  | nil => exact h
  | cons op ops ih => 
    exact ih (fun f force cache h => hops f force cache (by simp [h])) _ _
      (kept_step lib hc caches hcaches mtxt ftxt st m h op fun f force cache h => hops f force cache (by simp [h]))

/-- **C84 (partial).** Take any model read from files, after any history of loading data, estimation settings, changed names, descriptions and
tuning lengths, saving and reloading, and save it under any name. If data have been loaded, `load` of the written file succeeds, unpickling or
not, and the loaded model has the same equations, name and data. Every setting comes back (what prints as `None` as `None`), and so do
the tuning length and the title and description that `info` shows; the latter unless, now or when it was loaded before, the model was taken from
those that had been parsed in the process.

Missing: models without data, see `C84_saved_model_loads_refuted`, and the description in those cases, see `C84_description_refuted`. -/
theorem C84_saved_model_loads_partial (lib : Lib B D X) (hc : PickleContract lib) (caches : List (List (Cached B X)))
    (hcaches : ∀ cache ∈ caches, CacheFits lib cache) (mtxt : String) (ftxt : Option String) (modName : B → String) (dir : Path) (m₀ m : Mod B D X)
    (hread : ofRead lib mtxt ftxt modName dir = .ok m₀) (st₀ st : Store X) (ops : List (Op B D X))
    (hops : ∀ f force cache, Op.reload f force cache ∈ ops → cache ∈ caches) (hrun : run lib st₀ m₀ ops = (st, m))
    (d : D) (hd : m.data = some d) (f : Option Path) (force : Bool) (cache : List (Cached B X)) (hin : cache ∈ caches) :
    ∃ m', load lib cache (saveMeta st m f).1 (savezName (metaName m f)) force = .ok m' ∧
      lib.parse mtxt ftxt = .ok m'.body ∧ m'.body = m.body ∧ m'.name = m.name ∧ m'.data = some d ∧
      (∀ k v, k ∉ reserved → m.fdict k = some v → m'.fdict k = some (if v.str lib = "None" then .none else v)) ∧
      (∀ k, k ∉ reserved → m.fdict k = none → m'.fdict k = none) ∧
      (∀ t, getTune m = .ok t → t.str lib ≠ "None" → getTune m' = .ok t) ∧
      (∀ s, info lib m = .ok s → m'.description = none → info lib m' = .ok s) ∧
      (m'.description = none ∨ Spec.CachedDescr caches mtxt ftxt m'.description) := by
  have hk : Kept lib caches mtxt ftxt m := by
    have := kept_run lib hc caches hcaches mtxt ftxt ops hops st₀ m₀ (kept_ofRead lib caches mtxt ftxt modName dir m₀ hread)
    rwa [hrun] at this
  obtain ⟨m', hl, hk', hb, hn, hda, ht, hdescr, hfd⟩ := load_saved lib hc caches cache hin (hcaches cache hin) mtxt ftxt st m hk d hd f force
  have hres : ∀ k, k ∉ reserved → m'.fdict k = (m.fdict k).map (backFrom lib) := by
    intro k hr
    have h1 : k ≠ "model_dump" := fun h => hr (by simp [h, reserved])
    rw [hfd k h1, metaDict_other m k]
    intro hk'
    apply hr
    revert hk'
    simp only [List.mem_cons, List.not_mem_nil, or_false, reserved]
    tauto
  refine ⟨m', hl, hk'.body, hb, hn, hda, ?_, ?_, ?_, ?_, ?_⟩
  · intro k v hr hv
    rw [hres k hr, hv]; rfl
  · intro k hr hv
    rw [hres k hr, hv]; rfl
  · intro t hgt hts
    have : metaDict m "tune" = some t := by
      rw [metaDict_tune]
      unfold getTune at hgt
      cases hmt : m.tune with
      | some t' => simp only [hmt, Except.ok.injEq] at hgt; simp [hgt]
      | none =>
        cases hft : m.fdict "tune" with
        | some t' => simp only [hmt, hft, Except.ok.injEq] at hgt; simp [hgt]
        | none => simp [hmt, hft] at hgt
    unfold getTune
    rw [ht, hfd "tune" (by decide), this]
    simp [backFrom, hts]
  · intro s hs hdn
    unfold info
    rw [hdn, hfd "description" (by decide), metaDict_description, hn]
    unfold info at hs
    cases hmd : m.description with
    | some v =>
      simp only [hmd, Except.ok.injEq] at hs
      simp [backFrom_str, hs]
    | none =>
      cases hfd' : m.fdict "description" with
      | some v =>
        simp only [hmd, hfd', Except.ok.injEq] at hs
        simp [backFrom_str, hs]
      | none => simp [hmd, hfd'] at hs
  · exact hdescr

/-- **C84 (refuted).** For every model that was never given data, whatever else happened to it: what `save` writes cannot be loaded. -/
theorem C84_saved_model_loads_refuted (lib : Lib B D X) (hc : PickleContract lib) (caches : List (List (Cached B X)))
    (hcaches : ∀ cache ∈ caches, CacheFits lib cache) (mtxt : String) (ftxt : Option String) (modName : B → String) (dir : Path) (m₀ m : Mod B D X)
    (hread : ofRead lib mtxt ftxt modName dir = .ok m₀) (st₀ st : Store X) (ops : List (Op B D X))
    (hops : ∀ f force cache, Op.reload f force cache ∈ ops → cache ∈ caches) (hrun : run lib st₀ m₀ ops = (st, m))
    (hd : m.data = none) (f : Option Path) (force : Bool) (cache : List (Cached B X)) (hin : cache ∈ caches) :
    load lib cache (saveMeta st m f).1 (savezName (metaName m f)) force = .error .keyError := by
  have hk : Kept lib caches mtxt ftxt m := by
    have := kept_run lib hc caches hcaches mtxt ftxt ops hops st₀ m₀ (kept_ofRead lib caches mtxt ftxt modName dir m₀ hread)
    rwa [hrun] at this
  exact load_no_data lib caches cache (hcaches cache hin) mtxt ftxt st m hk hd hc f force

/-- How the model gets its description: from the pickle, or from the cache. -/
theorem load_description (lib : Lib B D X) (hc : PickleContract lib) (cache : List (Cached B X)) (st : Store X) (f : Path) (force : Bool) (m' : Mod B D X)
    (h : load lib cache st f force = .ok m') (fd : FDict X) (hst : st f = some fd) (y : Val X) (hy : fd "yaml_raw" = some y)
    (r : B × Option (Val X))
    (hr : (force = false ∧ (fd "model_dump").bind lib.loadsModel = some r) ∨ (force = true ∧ reparse lib cache fd (Val.str lib y) = .ok r)) :
    m'.description = r.2 ∧ m'.fdict "model_dump" = some (.obj (lib.dumpModel r.1 r.2 fd)) := by
  obtain ⟨b, de⟩ := r
  have hne : Val.str lib (.obj (lib.dumpModel b de fd)) ≠ "None" := hc.modelStr b de fd
  unfold load at h
  simp only [hst, hy] at h
  rcases hr with ⟨rfl, hr⟩ | ⟨rfl, hr⟩ <;> simp only [Bool.false_eq_true, if_false, if_true, hr] at h <;>
    repeat' split at h
  all_goals first
    | (simp only [Except.ok.injEq] at h
       subst h
       exact ⟨rfl, by simp [FDict.set, hne]⟩)
    | cases h

/-- **C84 (refuted for the description).** Take a model with a functions file that was read in this process, give it data and a new description
`v`, save it and load it with `force_parse=True` (or where unpickling fails): `info` shows the description of the file, not `v`. From then on a
description `w` is lost as well by saving and loading, also in a new process where unpickling works. -/
theorem C84_description_refuted (lib : Lib B D X) (hc : PickleContract lib)
    (hload : ∀ b de fd, lib.loadsModel (.obj (lib.dumpModel b de fd)) = some (b, de)) (mtxt t : String) (ht : t ≠ "None") (modName : B → String)
    (dir : Path) (m₀ : Mod B D X) (hread : ofRead lib mtxt (some t) modName dir = .ok m₀) (st : Store X) (d : D) (obs : X) (v w : Val X)
    (f g : Option Path) :
    let cache : List (Cached B X) := [⟨m₀.body, mtxt, some t, m₀.description⟩]
    let loaded := run lib st m₀ [.putData d obs, .description v, .reload f true cache]
    let again := run lib loaded.1 loaded.2 [.description w, .reload g false []]
    info lib loaded.2 = .ok (m₀.name, modName m₀.body) ∧ info lib again.2 = .ok (m₀.name, modName m₀.body) := by
  intro cache loaded again
  have hk0 : Kept lib [cache, []] mtxt (some t) m₀ := kept_ofRead lib _ mtxt (some t) modName dir m₀ hread
  have hde : m₀.description = some (.txt (modName m₀.body)) := by
    unfold ofRead at hread
    cases hp : lib.parse mtxt (some t) with
    | error e => simp [hp] at hread
    | ok b =>
      simp only [hp, Except.ok.injEq] at hread
      subst hread
      rfl
  have hcache : CacheFits lib cache := by
    intro c hc
    simp only [cache, List.mem_singleton] at hc
    subst hc
    exact ⟨hk0.body, by simpa using ht⟩
  have hcs : ∀ c ∈ [cache, []], CacheFits lib c := by
    intro c hc
    simp only [List.mem_cons, List.not_mem_nil, or_false] at hc
    rcases hc with rfl | rfl
    · exact hcache
    · exact fun c hc => absurd hc (by simp)
  have hk1 : Kept lib [cache, []] mtxt (some t) { putData lib m₀ d obs with description := some v } := by
    have := kept_run lib hc [cache, []] hcs mtxt (some t) [.putData d obs, .description v] (by simp) st m₀ hk0
    exact this
  obtain ⟨m1, hl1, hk1', hb1, hn1, hd1, -, -, -⟩ :=
    load_saved lib hc [cache, []] cache (by simp) hcache mtxt (some t) st _ hk1 d rfl f true
  have e1 : loaded.2 = m1 := by
    simp only [loaded, run, List.foldl_cons, List.foldl_nil, step, hl1]
  have h12 : m1.description = some (.txt (modName m₀.body)) ∧
      ∃ fd, m1.fdict "model_dump" = some (.obj (lib.dumpModel m1.body m1.description fd)) := by
    have hkm := kept_meta lib [cache, []] mtxt (some t) _ hk1
    obtain ⟨h1, ⟨y, hy, hys⟩, h3, -, -, -⟩ := hkm
    have hr : reparse lib cache (metaDict { putData lib m₀ d obs with description := some v }) (Val.str lib y) = .ok (m₀.body, m₀.description) := by
      unfold reparse
      simp only at h3
      cases hv : metaDict { putData lib m₀ d obs with description := some v } "ffile_raw" with
      | none => rw [hv] at h3; simp at h3
      | some u =>
        rw [hv] at h3
        simp only [Option.map_some, Option.some.injEq] at h3
        simp [cache, hys, h3]
    have := load_description lib hc cache _ _ true m1 hl1 _ (by simp [saveMeta]) y hy _ (Or.inr ⟨rfl, hr⟩)
    exact ⟨this.1.trans hde, metaDict { putData lib m₀ d obs with description := some v }, by rw [this.2, this.1, hb1]; simp only [putData]⟩
  obtain ⟨hm1, hdump⟩ := h12
  have hk2 : Kept lib [cache, []] mtxt (some t) { m1 with description := some w } := ⟨hk1'.1, hk1'.2, hk1'.3, hk1'.4, hk1'.5, hk1'.6⟩
  obtain ⟨m2, hl2, hk2', hb2, hn2, -⟩ :=
    load_saved lib hc [cache, []] [] (by simp) (fun c hc => absurd hc (by simp)) mtxt (some t) loaded.1 _ hk2 d hd1 g false
  have e2 : again.2 = m2 := by
    simp only [again, run, List.foldl_cons, List.foldl_nil, step, e1, hl2]
  have hm2 : m2.description = some (.txt (modName m₀.body)) := by
    obtain ⟨-, ⟨y, hy, -⟩, -, -, -, -⟩ := kept_meta lib [cache, []] mtxt (some t) _ hk2
    obtain ⟨fd, hfd⟩ := hdump
    have e : metaDict { m1 with description := some w } "model_dump" = m1.fdict "model_dump" := metaDict_other _ _ (by decide)
    have := load_description lib hc [] _ _ false m2 hl2 _ (by simp [saveMeta]) y hy (m1.body, m1.description)
      (Or.inl ⟨rfl, by
        show (metaDict { m1 with description := some w } "model_dump").bind lib.loadsModel = _
        rw [e, hfd]
        exact hload _ _ _⟩)
    rw [this.1]
    exact hm1
  rw [e1, e2]
  constructor
  · simp only [info, hm1, Val.str, hn1]
    rfl
  · simp only [info, hm2, Val.str, hn2, hn1]
    rfl

/-- **C83 (refuted).** For every model read from files, whatever happened to it: `write_yaml` raises, and the file of that name is empty
afterwards, whatever it contained. -/
theorem C83_write_yaml_refuted (lib : Lib B D X) (hc : PickleContract lib) (caches : List (List (Cached B X)))
    (hcaches : ∀ cache ∈ caches, CacheFits lib cache) (mtxt : String) (ftxt : Option String) (modName : B → String) (dir : Path) (m₀ m : Mod B D X)
    (hread : ofRead lib mtxt ftxt modName dir = .ok m₀) (st₀ st : Store X) (ops : List (Op B D X))
    (hops : ∀ f force cache, Op.reload f force cache ∈ ops → cache ∈ caches) (hrun : run lib st₀ m₀ ops = (st, m))
    (fs : Path → Option String) (filename : Path) :
    (writeYaml fs m filename).2 = some .attributeError ∧ (writeYaml fs m filename).1 (yamlName filename) = some "" := by
  have hk : Kept lib caches mtxt ftxt m := by
    have := kept_run lib hc caches hcaches mtxt ftxt ops hops st₀ m₀ (kept_ofRead lib caches mtxt ftxt modName dir m₀ hread)
    rwa [hrun] at this
  simp [writeYaml, hk.raw]

/-- **C83 (partial).** If the attribute `raw_yaml` has been set by hand, `write_yaml` writes that text, to a file whose name ends in `.yaml`,
and touches no other file.

Missing: the package never sets the attribute, see `C83_write_yaml_refuted`. -/
theorem C83_write_yaml_partial (m : Mod B D X) (t : String) (h : m.rawYaml = some t) (fs : Path → Option String) (filename : Path) :
    (writeYaml fs m filename).2 = none ∧
    ∃ f : Path, (∃ stem, f = stem ++ ".yaml".toList) ∧ (f = filename ∨ f = filename ++ ".yaml".toList) ∧
      (writeYaml fs m filename).1 f = some t ∧ ∀ g, g ≠ f → (writeYaml fs m filename).1 g = fs g := by
  refine ⟨by simp [writeYaml, h], yamlName filename, ?_, ?_, by simp [writeYaml, h], ?_⟩
  · unfold yamlName
    split_ifs with hy
    · exact ⟨filename, rfl⟩
    · have hy' := not_not.mp hy
      exact ⟨filename.take (filename.length - 5), by
        conv_lhs => rw [← List.take_append_drop (filename.length - 5) filename, hy']
        rfl⟩
  · unfold yamlName
    split_ifs
    · exact Or.inr rfl
    · exact Or.inl rfl
  · intro g hg
    simp [writeYaml, h, Function.update_of_ne hg]

end

/-! ## A library and a model that meet the assumptions -/

namespace PersistEx

/-- Pickles are tagged values: of models (with the text) and of data. -/
inductive Obj
  | model (b : String) (description : Option (Val Obj))
  | data (d : Nat)
  | num (n : Int)

def lib (broken : Bool) : Lib String Nat Obj where
  show' x := match x with
    | .model _ _ => "b'model'"
    | .data _ => "b'data'"
    | .num _ => "number"
  dumpModel b de _ := .model b de
  loadsModel v := if broken then none else match v with
    | .obj (.model b de) => some (b, de)
    | _ => none
  dumpData d := .data d
  loadsData v := match v with
    | .obj (.data d) => some d
    | _ => none
  parse m f := .ok (m ++ f.getD "")

theorem contract (broken : Bool) : PickleContract (lib broken) where
  model b de fd := by cases broken <;> simp [lib]
  data d := rfl
  modelStr b de fd := by simp only [lib]; decide
  dataStr d := by simp only [lib]; decide

theorem cacheFits : CacheFits (lib true) [⟨"yaml", "yaml", none, none⟩] := by
  intro c hc
  simp only [List.mem_cons, List.not_mem_nil, or_false] at hc
  subst hc
  exact ⟨rfl, by simp⟩

def st0 : Store Obj := fun _ => none

/-- A history: data, a setting, a tuning length, a saved copy, a new name, a reload without unpickling. -/
def ops : List (Op String Nat Obj) :=
  [.putData 3 (.num 0), .setting "seed" (.obj (.num 7)), .tune (.obj (.num 100)), .save none, .name "other", .reload (some "x".toList) true [⟨"yaml", "yaml", none, none⟩]]

def m0 : Mod String Nat Obj :=
  match ofRead (lib true) "yaml" none (fun _ => "mod") "dir".toList with
  | .ok m => m
  | .error _ => ⟨"", fun _ => none, "", [], none, none, none, none, none, none⟩

/-- The history leads to a model with data: the assumptions of `C84_saved_model_loads_partial` hold. -/
theorem hypotheses_met : ofRead (lib true) "yaml" none (fun _ => "mod") "dir".toList = .ok m0 ∧
    (run (lib true) st0 m0 ops).2.data = some 3 ∧
    (run (lib true) st0 m0 ops).2.name = "other" ∧
    (run (lib true) st0 m0 ops).2.fdict "seed" = some (.obj (.num 7)) :=
  ⟨rfl, rfl, rfl, rfl⟩

/-- And a model without data, for the refutations. -/
theorem hypotheses_met_no_data : (run (lib true) st0 m0 [.save none]).2.data = none := rfl

/-- And of the refutation for the description. -/
example : ∃ m, ofRead (lib false) "yaml" (some "funcs") (fun _ => "mod") "dir".toList = .ok m ∧
    ∀ b de fd, (lib false).loadsModel (.obj ((lib false).dumpModel b de fd)) = some (b, de) := ⟨_, rfl, fun _ _ _ => rfl⟩

example : ({ m0 with rawYaml := some "text" } : Mod String Nat Obj).rawYaml = some "text" := rfl

end PersistEx

variable {B D X : Type}

/-- What an archive of the model `m` holds: the attributes, where they are set, in place of the entries of the settings; everything else as in
the settings. -/
structure Spec.Archive (m : Mod B D X) (fd : FDict X) : Prop where
  name : fd "name" = some (.txt m.name)
  description : fd "description" = if m.description = none then m.fdict "description" else m.description
  backend : fd "backend_file" = if m.backendFile = none then m.fdict "backend_file" else m.backendFile
  tune : fd "tune" = if m.tune = none then m.fdict "tune" else m.tune
  filterR : ∀ R P, m.filter = some (some R, P) → fd "filter_R" = some (.obj R)
  filterP : ∀ R P, m.filter = some (some R, some P) → fd "filter_P" = some (.obj P)
  noR : (m.filter = none ∨ ∃ P, m.filter = some (none, P)) → fd "filter_R" = m.fdict "filter_R" ∧ fd "filter_P" = m.fdict "filter_P"
  noP : ∀ R, m.filter = some (some R, none) → fd "filter_P" = m.fdict "filter_P"
  other : ∀ k, k ∉ ["description", "backend_file", "tune", "name", "filter_R", "filter_P"] → fd k = m.fdict k

theorem metaDict_archive (m : Mod B D X) : Spec.Archive m (metaDict m) := by
  constructor
  · exact metaDict_name m
  · rw [metaDict_description]
    cases m.description <;> simp
  · unfold metaDict
    rcases m.filter with _ | ⟨_ | R, _ | P⟩ <;> rcases m.description with _ | a <;> rcases m.backendFile with _ | b <;>
      rcases m.tune with _ | c <;> simp [FDict.setIf, FDict.set]
  · rw [metaDict_tune]
    cases m.tune <;> simp
  · intro R P h
    unfold metaDict
    rw [h]
    cases P <;> simp [FDict.set]
  · intro R P h
    unfold metaDict
    rw [h]
    simp [FDict.set]
  · rintro (h | ⟨P, h⟩) <;> unfold metaDict <;> rw [h] <;> rcases m.description with _ | a <;> rcases m.backendFile with _ | b <;>
      rcases m.tune with _ | c <;> simp [FDict.setIf, FDict.set]
  · intro R h
    unfold metaDict
    rw [h]
    rcases m.description with _ | a <;> rcases m.backendFile with _ | b <;> rcases m.tune with _ | c <;> simp [FDict.setIf, FDict.set]
  · exact metaDict_other m

/-- Where the archive of a model is: at the name that is given, with the ending `.npz`; else (no name, or an empty one) in the directory of
the model, under the name of the model with the ending `_meta.npz`. -/
def Spec.archivePlace (m : Mod B D X) (f : Option Path) : Path :=
  let f := f.getD []
  if f ≠ [] then if ".npz".toList <:+ f then f else f ++ ".npz".toList
  else (if m.path = [] then [] else m.path ++ ['/']) ++ m.name.toList ++ "_meta.npz".toList

theorem endsNpz_iff (f : Path) : endsNpz f = true ↔ ".npz".toList <:+ f := by
  have hn : ".npz".toList = npz := rfl
  unfold endsNpz
  rw [hn, List.suffix_iff_eq_drop]
  simp only [decide_eq_true_eq]
  exact ⟨fun h => h.symm, fun h => h.symm⟩

/-- **C84** (archive): where `save` writes, and what; nothing else is written. The name of the model must not begin with a slash, nor its
directory end with one. -/
theorem C84_place (st : Store X) (m : Mod B D X) (hn : m.name.toList.head? ≠ some '/') (hp : m.path.getLast? ≠ some '/') (f : Option Path) :
    (∃ fd, (saveMeta st m f).1 (Spec.archivePlace m f) = some fd ∧ Spec.Archive m fd) ∧
    ∀ p, p ≠ Spec.archivePlace m f → (saveMeta st m f).1 p = st p := by
  have hplace : savezName (metaName m f) = Spec.archivePlace m f := by
    have key : savezName (join m.path (m.name.toList ++ metaSuffix)) =
        (if m.path = [] then [] else m.path ++ ['/']) ++ m.name.toList ++ "_meta.npz".toList := by
      have hsuf : "_meta.npz".toList = metaSuffix ++ npz := rfl
      have habs : isAbs (m.name.toList ++ metaSuffix) = false := by
        unfold isAbs
        cases h : m.name.toList with
        | nil => decide
        | cons c cs =>
          rw [h] at hn
          simpa using hn
      have hj : join m.path (m.name.toList ++ metaSuffix) = (if m.path = [] then [] else m.path ++ ['/']) ++ m.name.toList ++ metaSuffix := by
        unfold join
        rw [habs]
        by_cases h0 : m.path = []
        · simp [h0]
        · simp [h0, hp]
      have hne : ∀ q : Path, endsNpz (q ++ metaSuffix) = false := by
        intro q
        unfold endsNpz
        have : (q ++ metaSuffix).length - 4 = q.length + 1 := by simp [metaSuffix]
        rw [this, List.drop_append]
        have h0 : List.drop (List.length q + 1) q = [] := List.drop_eq_nil_of_le (by omega)
        rw [h0]
        simp [metaSuffix, npz]
      rw [hj, savezName, hne, hsuf]
      simp
    unfold Spec.archivePlace
    rcases f with _ | _ | ⟨c, cs⟩
    · exact key
    · exact key
    · have hm : metaName m (some (c :: cs)) = c :: cs := rfl
      have hnpz : ".npz".toList = npz := rfl
      rw [hm]
      unfold savezName
      simp only [endsNpz_iff, Option.getD_some, ne_eq, reduceCtorEq, not_false_eq_true, if_true, hnpz]
  constructor
  · refine ⟨metaDict m, ?_, metaDict_archive m⟩
    unfold saveMeta
    simp only
    rw [hplace, Function.update_self]
  · intro p hp'
    unfold saveMeta
    simp only
    rw [hplace, Function.update_of_ne hp']

/-- C84_place: a model called `rank` in `models` is saved as `models/rank_meta.npz`. -/
example : Spec.archivePlace ({ PersistEx.m0 with name := "rank", path := "models".toList } : Mod String Nat PersistEx.Obj) none =
    "models/rank_meta.npz".toList := by decide

/-- A loaded model belongs to the directory of the archive, so that `save()` without a name writes into the same directory. -/
theorem C84_directory (lib : Lib B D X) (cache : List (Cached B X)) (st : Store X) (dir base : Path) (hb : '/' ∉ base) (force : Bool)
    (m : Mod B D X) (h : load lib cache st (dir ++ '/' :: base) force = .ok m) : m.path = dir := by
  have hd : dirname (dir ++ '/' :: base) = dir := by
    unfold dirname
    rw [List.reverse_append, List.reverse_cons, List.append_assoc, List.dropWhile_append_of_pos (by
      intro c hc
      have : c ∈ base := by simpa using hc
      simp only [ne_eq, decide_not, Bool.not_eq_eq_eq_not, Bool.not_true, decide_eq_false_iff_not]
      rintro rfl
      exact hb this)]
    simp
  have hp : m.path = dirname (dir ++ '/' :: base) := by
    unfold load at h
    simp only at h
    repeat' split at h
    all_goals first | (cases h; rfl) | cases h
  rw [hp, hd]

example : dirname "results/rank_meta.npz".toList = "results".toList := by decide

end Pydsge
