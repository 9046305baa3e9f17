import Verif.Model.Dict
import Mathlib.Algebra.Order.Ring.Rat

/-!
# C85-C87: models given as dictionaries
-/

set_option autoImplicit false
set_option linter.unusedSectionVars false
set_option linter.unusedSimpArgs false

namespace Pydsge

open DictModel

section
variable {C S D Y : Type} [DecidableEq Y]

/-- Every cached model is the solution of a dictionary with that pickle, as its `l_max` and `k_max` say. -/
def CacheSolved (lib : Lib C S D Y) (st : St C S D Y) : Prop :=
  ∀ cache, st.cache = some cache → ∀ e ∈ cache, ∃ md l k m, lib.dump md = e.1 ∧ md.lMax = some l ∧ md.kMax = some k ∧
    st.objs[e.2]? = some m ∧ lib.solve md.core l k = .ok m.sol

theorem process_solved (lib : Lib C S D Y) (st : St C S D Y) (d : Nat) (cache : List (Y × Nat)) (l k : Option Int)
    (hd : (st.dicts d).lMax = some l ∧ (st.dicts d).kMax = some k)
    (h : ∀ e ∈ cache, ∃ md l k m, lib.dump md = e.1 ∧ md.lMax = some l ∧ md.kMax = some k ∧
      st.objs[e.2]? = some m ∧ lib.solve md.core l k = .ok m.sol) :
    CacheSolved lib (process lib st d cache l k).1 ∧
    ∀ o, (process lib st d cache l k).2 = .ok o →
      ∃ m, (process lib st d cache l k).1.objs[o]? = some m ∧ lib.solve (st.dicts d).core l k = .ok m.sol ∧
        m.fdict = d ∧ m.data = none ∧ o = st.objs.length := by
  unfold process
  cases hs : lib.solve (st.dicts d).core l k with
  | error e =>
    simp only [hs]
    refine ⟨?_, by simp⟩
    intro c hc e he
    simp only [Option.some.injEq] at hc
    subst hc
    exact h e he
  | ok s =>
    simp only [hs]
    refine ⟨?_, ?_⟩
    · intro c hc e he
      simp only [Option.some.injEq] at hc
      subst hc
      rcases List.mem_cons.mp he with rfl | he
      · exact ⟨st.dicts d, l, k, ⟨s, d, none⟩, rfl, hd.1, hd.2, by simp, hs⟩
      · obtain ⟨md, l', k', m, h1, h2, h3, h4, h5⟩ := h e he
        refine ⟨md, l', k', m, h1, h2, h3, ?_, h5⟩
        have hlt : e.2 < st.objs.length := by
          by_contra hc
          rw [List.getElem?_eq_none (Nat.le_of_not_lt hc)] at h4
          cases h4
        show (st.objs ++ _)[e.2]? = _
        rw [List.getElem?_append_left hlt, h4]
    · intro o ho
      simp only [Except.ok.injEq] at ho
      subst ho
      exact ⟨⟨s, d, none⟩, by simp, rfl, rfl, rfl, rfl⟩

theorem genSysFromDict_solved (lib : Lib C S D Y) (hinj : Function.Injective lib.dump) (st : St C S D Y) (h : CacheSolved lib st) (d : Nat)
    (l k : Option Int) (force : Bool) :
    CacheSolved lib (genSysFromDict lib st d l k force).1 ∧
    ∀ o, (genSysFromDict lib st d l k force).2 = .ok o →
      ∃ m, (genSysFromDict lib st d l k force).1.objs[o]? = some m ∧ lib.solve (st.dicts d).core l k = .ok m.sol := by
  unfold genSysFromDict
  have hnil : ∀ e ∈ ([] : List (Y × Nat)), ∃ md l k m, lib.dump md = e.1 ∧ md.lMax = some l ∧ md.kMax = some k ∧
      st.objs[e.2]? = some m ∧ lib.solve md.core l k = .ok m.sol := by simp
  have hp : ∀ cache : List (Y × Nat), (∀ e ∈ cache, ∃ md l k m, lib.dump md = e.1 ∧ md.lMax = some l ∧ md.kMax = some k ∧
      st.objs[e.2]? = some m ∧ lib.solve md.core l k = .ok m.sol) → _ := fun cache hcache =>
    process_solved lib { st with dicts := fun d' => if d' = d then { st.dicts d with lMax := some l, kMax := some k } else st.dicts d' } d
      cache l k (by simp) hcache
  cases force with
  | true =>
    obtain ⟨h1, h2⟩ := hp [] hnil
    refine ⟨h1, fun o ho => ?_⟩
    obtain ⟨m, hm, hs, _⟩ := h2 o ho
    exact ⟨m, hm, by simpa using hs⟩
  | false =>
    cases hc : st.cache with
    | none =>
      obtain ⟨h1, h2⟩ := hp [] hnil
      simp only [hc]
      refine ⟨h1, fun o ho => ?_⟩
      obtain ⟨m, hm, hs, _⟩ := h2 o ho
      exact ⟨m, hm, by simpa using hs⟩
    | some cache =>
      simp only [hc]
      cases hf : cache.find? (fun e => decide (e.1 = lib.dump { st.dicts d with lMax := some l, kMax := some k })) with
      | some e =>
        simp only [hf]
        refine ⟨?_, ?_⟩
        · intro c hc'
          exact h c (hc.trans hc')
        · intro o ho
          simp only [Except.ok.injEq] at ho
          subst ho
          have hm := List.mem_of_find?_eq_some hf
          have hk := List.find?_some hf
          simp only [decide_eq_true_eq] at hk
          obtain ⟨md, l', k', m, h1, h2, h3, h4, h5⟩ := h cache hc e hm
          have hmd := hinj (h1.trans hk)
          subst hmd
          simp only [Option.some.injEq] at h2 h3
          subst h2 h3
          exact ⟨m, h4, h5⟩
      | none =>
        simp only [hf]
        obtain ⟨h1, h2⟩ := hp cache (h cache hc)
        refine ⟨h1, fun o ho => ?_⟩
        obtain ⟨m, hm, hs, _⟩ := h2 o ho
        exact ⟨m, hm, by simpa using hs⟩

theorem step_solved (lib : Lib C S D Y) (hinj : Function.Injective lib.dump) (st : St C S D Y) (h : CacheSolved lib st) (op : Op C D) :
    CacheSolved lib (step lib st op) := by
  cases op with
  | dict d md => exact h
  | make d l k f => exact (genSysFromDict_solved lib hinj st h d l k f).1
  | data o x =>
    simp only [step, putData]
    cases ho : st.objs[o]? with
    | none => exact h
    | some m =>
      intro cache hc e he
      obtain ⟨md, l, k, m', h1, h2, h3, h4, h5⟩ := h cache hc e he
      by_cases heq : e.2 = o
      · rw [heq, ho] at h4
        simp only [Option.some.injEq] at h4
        subst h4
        refine ⟨md, l, k, { m with data := some x }, h1, h2, h3, ?_, h5⟩
        have hlt : o < st.objs.length := by
          by_contra hc
          rw [List.getElem?_eq_none (Nat.le_of_not_lt hc)] at ho
          cases ho
        show (st.objs.set o _)[e.2]? = _
        rw [heq, List.getElem?_set_self hlt]
      · refine ⟨md, l, k, m', h1, h2, h3, ?_, h5⟩
        show (st.objs.set o _)[e.2]? = _
        rw [List.getElem?_set_ne (Ne.symm heq), h4]

theorem run_solved (lib : Lib C S D Y) (hinj : Function.Injective lib.dump) (ops : List (Op C D)) (st : St C S D Y) (h : CacheSolved lib st) :
    CacheSolved lib (run lib st ops) := by
  unfold run
  induction ops generalizing st with
  | nil => exact h
  | cons op ops ih => exact ih _ (step_solved lib hinj st h op)

/-- **C85.** In any process, after any history of new and changed dictionaries, models made and data loaded: the model that
`gen_sys_from_dict` returns is the solution of the dictionary as it is now, for the given `l_max` and `k_max`, be it new or from the cache. -/
theorem C85_dictionary_solved (lib : Lib C S D Y) (hinj : Function.Injective lib.dump) (dicts : Nat → MDict C D) (ops : List (Op C D))
    (d : Nat) (l k : Option Int) (force : Bool) (o : Nat)
    (h : (genSysFromDict lib (run lib (start dicts) ops) d l k force).2 = .ok o) :
    ∃ m, (genSysFromDict lib (run lib (start dicts) ops) d l k force).1.objs[o]? = some m ∧
      lib.solve ((run lib (start dicts) ops).dicts d).core l k = .ok m.sol := by
  have h0 : CacheSolved lib (start dicts : St C S D Y) := by
    intro cache hc
    cases hc
  exact (genSysFromDict_solved lib hinj _ (run_solved lib hinj ops _ h0) d l k force).2 o h

/-- **C86 (refuted).** Whenever `gen_sys_from_dict` is called twice in a row, without `force_processing` the second time, both calls return
the same object. Data loaded into one model are then data of the other, and they are written into the caller's dictionary. -/
theorem C86_dictionary_models_independent_refuted (lib : Lib C S D Y) (dicts : Nat → MDict C D) (ops : List (Op C D)) (d : Nat)
    (l k : Option Int) (force : Bool) (o : Nat) (st : St C S D Y)
    (h : genSysFromDict lib (run lib (start dicts) ops) d l k force = (st, .ok o)) (x : D) :
    (genSysFromDict lib st d l k false).2 = .ok o ∧
    (∀ m, st.objs[o]? = some m →
      ((putData (genSysFromDict lib st d l k false).1 o x).objs[o]?).map (·.data) = some (some x) ∧
      ((putData (genSysFromDict lib st d l k false).1 o x).dicts m.fdict).data = some x) := by
  have key : ∃ cache e, st.cache = some cache ∧ e.2 = o ∧
      cache.find? (fun e => decide (e.1 = lib.dump { st.dicts d with lMax := some l, kMax := some k })) = some e := by
    generalize run lib (start dicts) ops = s at h
    have hp : ∀ (s : St C S D Y) cache, (s.dicts d).lMax = some l → (s.dicts d).kMax = some k → process lib s d cache l k = (st, .ok o) →
        ∃ cache e, st.cache = some cache ∧ e.2 = o ∧
          cache.find? (fun e => decide (e.1 = lib.dump { st.dicts d with lMax := some l, kMax := some k })) = some e := by
      intro s cache hl hk hpr
      unfold process at hpr
      cases hs : lib.solve (s.dicts d).core l k with
      | error e => simp [hs] at hpr
      | ok s' =>
        simp only [hs, Prod.mk.injEq, Except.ok.injEq] at hpr
        obtain ⟨h1, h2⟩ := hpr
        subst h1
        refine ⟨_, (lib.dump (s.dicts d), s.objs.length), rfl, h2, ?_⟩
        have : ({ s.dicts d with lMax := some l, kMax := some k } : MDict C D) = s.dicts d := by
          rw [← hl, ← hk]
        simp [this]
    unfold genSysFromDict at h
    cases force with
    | true => exact hp _ [] (by simp) (by simp) h
    | false =>
      cases hc : s.cache with
      | none =>
        simp only [hc] at h
        exact hp _ [] (by simp) (by simp) h
      | some cache =>
        simp only [hc] at h
        cases hf : cache.find? (fun e => decide (e.1 = lib.dump { s.dicts d with lMax := some l, kMax := some k })) with
        | none =>
          simp only [hf] at h
          exact hp _ cache (by simp) (by simp) h
        | some e =>
          simp only [hf, Prod.mk.injEq, Except.ok.injEq] at h
          obtain ⟨h1, h2⟩ := h
          subst h1
          exact ⟨cache, e, rfl, h2, by simpa using hf⟩
  obtain ⟨cache, e, hc, ho, hf⟩ := key
  have hst : genSysFromDict lib st d l k false =
      ({ st with dicts := fun d' => if d' = d then { st.dicts d with lMax := some l, kMax := some k } else st.dicts d' }, .ok o) := by
    unfold genSysFromDict
    simp only [hc, hf, ho]
  rw [hst]
  refine ⟨rfl, fun m hm => ?_⟩
  have hlt : o < st.objs.length := by
    by_contra hcc
    rw [List.getElem?_eq_none (Nat.le_of_not_lt hcc)] at hm
    cases hm
  simp only [putData, hm]
  refine ⟨?_, by simp⟩
  rw [List.getElem?_set_self hlt]
  rfl

/-- **C86 (partial).** With `force_processing` a call that succeeds returns a new object, which no earlier call has returned. Data loaded into it are not
data of any other model; they go into no dictionary but its own.

Missing: calls without `force_processing` (`C86_dictionary_models_independent_refuted`); with it, the model still keeps the caller's dictionary. -/
theorem C86_dictionary_models_independent_partial (lib : Lib C S D Y) (st : St C S D Y) (d : Nat) (l k : Option Int) (o : Nat) (st' : St C S D Y)
    (h : genSysFromDict lib st d l k true = (st', .ok o)) (x : D) :
    o = st.objs.length ∧ (∀ o', o' < st.objs.length → st'.objs[o']? = st.objs[o']?) ∧
    (∀ o', o' ≠ o → (putData st' o x).objs[o']? = st'.objs[o']?) ∧
    (∀ d', d' ≠ d → (putData st' o x).dicts d' = st.dicts d') := by
  unfold genSysFromDict process at h
  simp only [if_true] at h
  cases hs : lib.solve (st.dicts d).core l k with
  | error e => simp [hs] at h
  | ok s =>
    simp only [hs, Prod.mk.injEq, Except.ok.injEq] at h
    obtain ⟨h1, h2⟩ := h
    subst h1
    subst h2
    refine ⟨rfl, ?_, ?_, ?_⟩
    · intro o' ho'
      show (st.objs ++ _)[o']? = _
      rw [List.getElem?_append_left ho']
    · intro o' ho'
      simp only [putData, List.getElem?_append_right (Nat.le_refl _), Nat.sub_self, List.getElem?_cons_zero]
      rw [List.getElem?_set_ne (Ne.symm ho')]
    · intro d' hd'
      simp only [putData, List.getElem?_append_right (Nat.le_refl _), Nat.sub_self, List.getElem?_cons_zero, if_neg hd']

end

/-- **C87 (partial).** The bound of a model given as a dictionary is the one in the dictionary, or -1; and matrices of measurement equations
with rows are used as given, one without rows counts as none.

Missing: positive bounds are accepted, and the measurement equations cannot be left out (`C87_dictionary_entries_refuted`). -/
theorem C87_dictionary_entries_partial {K R : Type} [Field K] (x : K) (rows : List R) :
    DictModel.xBar (some x) = x ∧ DictModel.xBar (none : Option K) = -1 ∧
    DictModel.zz0 (some rows) = .ok (if rows.isEmpty then none else some rows) := by
  refine ⟨rfl, rfl, ?_⟩
  cases rows <;> rfl

/-- **C87 (refuted).** A positive bound is not rejected (unlike in model files, C28), and a dictionary without measurement equations raises
`TypeError`. -/
theorem C87_dictionary_entries_refuted :
    (∃ x : Rat, 0 < x ∧ DictModel.xBar (some x) = x) ∧ DictModel.zz0 (none : Option (List (List Rat))) = .error .typeError :=
  ⟨⟨1, by decide, rfl⟩, rfl⟩

/-! ## A process -/

namespace DictEx

def lib : Lib Nat (Nat × Option Int × Option Int) Nat (Nat × Option (Option Int) × Option (Option Int) × Option Nat) where
  dump md := (md.core, md.lMax, md.kMax, md.data)
  solve c l k := if c = 0 then .error .linAlg else .ok (c, l, k)

theorem inj : Function.Injective lib.dump := by
  rintro ⟨a, b, c, d⟩ ⟨a', b', c', d'⟩ h
  simp only [lib, Prod.mk.injEq] at h
  obtain ⟨rfl, rfl, rfl, rfl⟩ := h
  rfl

def st : St Nat (Nat × Option Int × Option Int) Nat (Nat × Option (Option Int) × Option (Option Int) × Option Nat) :=
  run lib (start fun d => ⟨d, none, none, none⟩) [.make 1 none none false, .make 2 (some 3) none false, .data 0 7, .make 1 none none false]

/-- The third call found a changed dictionary and made a new model; the fourth is served from the cache. -/
theorem fourth_call : (genSysFromDict lib st 2 (some 3) none false).2 = .ok 1 ∧ st.objs.length = 3 ∧
    (genSysFromDict lib st 2 (some 4) none true).2 = .ok 3 := by decide

end DictEx

end Pydsge
