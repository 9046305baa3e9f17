import Verif.Props.Persist

/-!
# C150: saving and loading a model again and again
-/

set_option autoImplicit false
set_option linter.unusedSectionVars false
set_option linter.unusedSimpArgs false

namespace Pydsge

open Persist Files

section
variable {B D X : Type}

/-- The size of pickles: a pickled model is larger than a pickle that is in its `fdict`. -/
def Spec.SizeOK (lib : Lib B D X) (size : X → Nat) : Prop :=
  ∀ b de fd x, fd "model_dump" = some (.obj x) → size x < size (lib.dumpModel b de fd)

/-- Saved and loaded, in processes with the given caches, one after the other. -/
def Spec.cycles (l : List (Option Path × Bool × List (Cached B X))) : List (Op B D X) := l.map fun c => .reload c.1 c.2.1 c.2.2

/-- What a load makes of the pickle. -/
theorem load_dump (lib : Lib B D X) (hc : PickleContract lib) (cache : List (Cached B X)) (st : Store X) (f : Path) (force : Bool) (m' : Mod B D X)
    (h : load lib cache st f force = .ok m') (fd : FDict X) (hst : st f = some fd) :
    m'.fdict "model_dump" = some (.obj (lib.dumpModel m'.body m'.description fd)) := by
  unfold load at h
  simp only [hst] at h
  repeat' split at h
  all_goals first
    | (simp only [Except.ok.injEq] at h
       subst h
       simp [FDict.set, hc.modelStr, Val.str])
    | cases h

/-- One cycle. -/
theorem cycle_step (lib : Lib B D X) (hc : PickleContract lib) (caches : List (List (Cached B X)))
    (hcaches : ∀ cache ∈ caches, CacheFits lib cache) (mtxt : String) (ftxt : Option String) (st : Store X) (m : Mod B D X)
    (h : Kept lib caches mtxt ftxt m) (d : D) (hd : m.data = some d) (f : Option Path) (force : Bool) (cache : List (Cached B X)) (hin : cache ∈ caches) :
    let m' := (step lib st m (.reload f force cache)).2
    Kept lib caches mtxt ftxt m' ∧ m'.body = m.body ∧ m'.name = m.name ∧ m'.data = some d ∧
      (∀ k, k ∉ reserved → m'.fdict k = (m.fdict k).map (backFrom lib)) ∧
      m'.fdict "model_dump" = some (.obj (lib.dumpModel m'.body m'.description (metaDict m))) := by
  obtain ⟨m', hl, hk', hb, hn, hda, ht, hdescr, hfd⟩ := load_saved lib hc caches cache hin (hcaches cache hin) mtxt ftxt st m h d hd f force
  have e : (step lib st m (.reload f force cache)).2 = m' := by simp only [step, hl]
  simp only [e]
  refine ⟨hk', hb, hn, hda, fun k hr => ?_, load_dump lib hc cache _ _ force m' hl _ (by simp [saveMeta])⟩
  have h1 : k ≠ "model_dump" := fun h => hr (by simp [h, reserved])
  rw [hfd k h1, metaDict_other m k]
  intro hk'
  apply hr
  revert hk'
  simp only [List.mem_cons, List.not_mem_nil, or_false, reserved]
  tauto

theorem backFrom_idem (lib : Lib B D X) (v : Val X) : backFrom lib (backFrom lib v) = backFrom lib v := by
  by_cases h : v.str lib = "None"
  · have : backFrom lib v = .none := by simp [backFrom, h]
    rw [this]
    simp [backFrom, Val.str]
  · have : backFrom lib v = v := by simp [backFrom, h]
    rw [this, this]

theorem cycles_run (lib : Lib B D X) (hc : PickleContract lib) (caches : List (List (Cached B X)))
    (hcaches : ∀ cache ∈ caches, CacheFits lib cache) (mtxt : String) (ftxt : Option String) (d : D)
    (l : List (Option Path × Bool × List (Cached B X))) (hl : ∀ c ∈ l, c.2.2 ∈ caches) :
    ∀ (st : Store X) (m : Mod B D X), Kept lib caches mtxt ftxt m → m.data = some d →
    let m' := (run lib st m (Spec.cycles l)).2
    Kept lib caches mtxt ftxt m' ∧ m'.body = m.body ∧ m'.name = m.name ∧ m'.data = some d ∧
      (l ≠ [] → ∀ k, k ∉ reserved → m'.fdict k = (m.fdict k).map (backFrom lib)) ∧
      ∀ size, Spec.SizeOK lib size → ∀ x, m.fdict "model_dump" = some (.obj x) →
        ∃ x', m'.fdict "model_dump" = some (.obj x') ∧ size x + l.length ≤ size x' := by
  induction l with
  | nil =>
    intro st m h hd
    exact ⟨h, rfl, rfl, hd, fun h => absurd rfl h, fun size _ x hx => ⟨x, hx, le_rfl⟩⟩
  | cons c l ih =>
    intro st m h hd
    obtain ⟨f, force, cache⟩ := c
    obtain ⟨a1, a2, a3, a4, a5, a6⟩ := cycle_step lib hc caches hcaches mtxt ftxt st m h d hd f force cache (hl (f, force, cache) (by simp))
    obtain ⟨b1, b2, b3, b4, b5, b6⟩ := ih (fun c hc => hl c (by simp [hc])) (step lib st m (.reload f force cache)).1 _ a1 a4
    have e : (run lib st m (Spec.cycles ((f, force, cache) :: l))) =
        run lib (step lib st m (.reload f force cache)).1 (step lib st m (.reload f force cache)).2 (Spec.cycles l) := rfl
    simp only [e]
    refine ⟨b1, b2.trans a2, b3.trans a3, b4, fun _ k hk => ?_, fun size hs x hx => ?_⟩
    · cases l with
      | nil => exact a5 k hk
      | cons c l =>
        rw [b5 (by simp) k hk, a5 k hk, Option.map_map]
        congr 1
        funext v
        exact backFrom_idem lib v
    · have hx' : metaDict m "model_dump" = some (.obj x) := by
        rw [metaDict_other m _ (by decide)]
        exact hx
      obtain ⟨x', h1, h2⟩ := b6 size hs _ a6
      have := hs (step lib st m (.reload f force cache)).2.body (step lib st m (.reload f force cache)).2.description (metaDict m) x hx'
      exact ⟨x', h1, by simp only [List.length_cons]; omega⟩

/-- **C150 (partial).** However often a model with data is saved and loaded, with or without unpickling and in whatever processes: the equations, the
name and the data stay, and all settings are those after the first time.

Missing: what is stored besides, see `C150_saving_again_refuted`. -/
theorem C150_saving_again_partial (lib : Lib B D X) (hc : PickleContract lib) (caches : List (List (Cached B X)))
    (hcaches : ∀ cache ∈ caches, CacheFits lib cache) (mtxt : String)
    (ftxt : Option String) (modName : B → String) (dir : Path) (m₀ m : Mod B D X)
    (hread : ofRead lib mtxt ftxt modName dir = .ok m₀) (st₀ st : Store X) (ops : List (Op B D X))
    (hops : ∀ f force cache, Op.reload f force cache ∈ ops → cache ∈ caches) (hrun : run lib st₀ m₀ ops = (st, m))
    (d : D) (hd : m.data = some d) (c : Option Path × Bool × List (Cached B X)) (l : List (Option Path × Bool × List (Cached B X)))
    (hl : ∀ c' ∈ c :: l, c'.2.2 ∈ caches) :
    let once := (run lib st m (Spec.cycles [c])).2
    let often := (run lib st m (Spec.cycles (c :: l))).2
    often.body = m.body ∧ often.name = m.name ∧ often.data = some d ∧
      (∀ k, k ∉ reserved → often.fdict k = once.fdict k) ∧
      ∀ k v, k ∉ reserved → m.fdict k = some v → v.str lib ≠ "None" → often.fdict k = some v := by
  have hk : Kept lib caches mtxt ftxt m := by
    have := kept_run lib hc caches hcaches mtxt ftxt ops hops st₀ m₀ (kept_ofRead lib caches mtxt ftxt modName dir m₀ hread)
    rwa [hrun] at this
  obtain ⟨-, a2, a3, a4, a5, -⟩ := cycles_run lib hc caches hcaches mtxt ftxt d (c :: l) hl st m hk hd
  obtain ⟨-, -, -, -, b5, -⟩ := cycles_run lib hc caches hcaches mtxt ftxt d [c] (fun c' hc' => hl c' (by simp at hc'; simp [hc'])) st m hk hd
  refine ⟨a2, a3, a4, fun k hk => (a5 (by simp) k hk).trans (b5 (by simp) k hk).symm, fun k v hr hv hn => ?_⟩
  rw [a5 (by simp) k hr, hv]
  simp [backFrom, hn]

/-- **C150 (refuted).** Every load puts the pickle that it has read into the next one (parser.py:618-622): for every model with data, the pickle in
`fdict`, and with it the archive, grows with every cycle of saving and loading, without bound, although nothing about the model changes. -/
theorem C150_saving_again_refuted (lib : Lib B D X) (hc : PickleContract lib) (size : X → Nat) (hs : Spec.SizeOK lib size)
    (caches : List (List (Cached B X))) (hcaches : ∀ cache ∈ caches, CacheFits lib cache) (mtxt : String)
    (ftxt : Option String) (modName : B → String) (dir : Path) (m₀ m : Mod B D X)
    (hread : ofRead lib mtxt ftxt modName dir = .ok m₀) (st₀ st : Store X) (ops : List (Op B D X))
    (hops : ∀ f force cache, Op.reload f force cache ∈ ops → cache ∈ caches) (hrun : run lib st₀ m₀ ops = (st, m))
    (d : D) (hd : m.data = some d) (l : List (Option Path × Bool × List (Cached B X))) (hl : ∀ c ∈ l, c.2.2 ∈ caches) (f : Option Path) :
    let m' := (run lib st m (Spec.cycles l)).2
    ∃ fd x, (saveMeta st m' f).1 (savezName (metaName m' f)) = some fd ∧ fd "model_dump" = some (.obj x) ∧ l.length ≤ size x := by
  have hk : Kept lib caches mtxt ftxt m := by
    have := kept_run lib hc caches hcaches mtxt ftxt ops hops st₀ m₀ (kept_ofRead lib caches mtxt ftxt modName dir m₀ hread)
    rwa [hrun] at this
  obtain ⟨de, fd0, hdump, -⟩ := hk.dump
  obtain ⟨-, -, -, -, -, a6⟩ := cycles_run lib hc caches hcaches mtxt ftxt d l hl st m hk hd
  obtain ⟨x, h1, h2⟩ := a6 size hs _ hdump
  intro m'
  refine ⟨metaDict m', x, by simp [saveMeta], ?_, by omega⟩
  rw [metaDict_other m' _ (by decide)]
  exact h1

end

namespace CyclesEx

/-- Pickles of models with the pickle in their `fdict`. -/
inductive Obj
  | model (b : String) (description : Option (Val Obj)) (inner : Option (Val Obj))
  | data (d : Nat)

def size : Obj → Nat
  | .model _ _ (some (.obj x)) => size x + 1
  | _ => 0

def lib : Lib String Nat Obj where
  show' x := match x with
    | .model _ _ _ => "b'model'"
    | .data _ => "b'data'"
  dumpModel b de fd := .model b de (fd "model_dump")
  loadsModel v := match v with
    | .obj (.model b de _) => some (b, de)
    | _ => none
  dumpData d := .data d
  loadsData v := match v with
    | .obj (.data d) => some d
    | _ => none
  parse m f := .ok (m ++ f.getD "")

/-- The hypotheses of both theorems are met. -/
theorem C150_hypotheses_met : PickleContract lib ∧ Spec.SizeOK lib size ∧ CacheFits lib [] ∧
    ∃ m₀, ofRead lib "yaml" none (fun _ => "mod") "dir".toList = .ok m₀ ∧
      ∃ st m, run lib (fun _ => none) m₀ [.putData 3 (.data 0), .reload none true []] = (st, m) ∧ m.data = some 3 := by
  refine ⟨⟨fun b de fd => Or.inr rfl, fun d => rfl, fun b de fd => by simp only [lib]; decide, fun d => by simp only [lib]; decide⟩, ?_,
    fun c hc => absurd hc (by simp), _, rfl, _, _, rfl, rfl⟩
  intro b de fd x hx
  simp only [lib, hx, size]
  omega

end CyclesEx
end Pydsge
