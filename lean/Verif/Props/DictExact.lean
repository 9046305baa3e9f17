import Verif.Props.Dict

/-!
# C86: when exactly two calls of `gen_sys_from_dict` return the same object
-/

set_option autoImplicit false
set_option linter.unusedSectionVars false
set_option linter.unusedSimpArgs false

namespace Pydsge

open DictModel

section
variable {C S D Y : Type} [DecidableEq Y]

/-- A call with `force_processing`. -/
def Spec.ForcedCall : Op C D → Prop
  | .make _ _ _ f => f = true
  | _ => False

/-- The dictionary at address `d` as `gen_sys_from_dict` pickles it, with the bounds of the call. -/
def Spec.keyOf (lib : Lib C S D Y) (st : St C S D Y) (d : Nat) (l k : Option Int) : Y :=
  lib.dump ⟨(st.dicts d).core, some l, some k, (st.dicts d).data⟩

/-- Every cached object exists and is cached once. -/
def CacheOnce (st : St C S D Y) : Prop :=
  ∀ c, st.cache = some c → (c.map Prod.snd).Nodup ∧ ∀ e ∈ c, e.2 < st.objs.length

/-- The object is found under this key. -/
def CacheHas (st : St C S D Y) (y : Y) (o : Nat) : Prop :=
  ∃ c, st.cache = some c ∧ c.find? (fun e => decide (e.1 = y)) = some (y, o)

/-- The object exists and is not in the cache. -/
def CacheLost (st : St C S D Y) (o : Nat) : Prop :=
  o < st.objs.length ∧ ∀ c, st.cache = some c → ∀ e ∈ c, e.2 ≠ o

/-- What a call does: it finds the object, or it makes a new one, or it fails. -/
theorem genSysFromDict_cases (lib : Lib C S D Y) (st : St C S D Y) (d : Nat) (l k : Option Int) (force : Bool) :
    (force = false ∧ ∃ c o, st.cache = some c ∧ c.find? (fun e => decide (e.1 = Spec.keyOf lib st d l k)) = some (Spec.keyOf lib st d l k, o) ∧
      (genSysFromDict lib st d l k force).2 = .ok o ∧ (genSysFromDict lib st d l k force).1.objs = st.objs ∧
      (genSysFromDict lib st d l k force).1.cache = st.cache) ∨
    ∃ c, (force = true ∧ c = [] ∨ force = false ∧ st.cache = none ∧ c = [] ∨
        force = false ∧ st.cache = some c ∧ c.find? (fun e => decide (e.1 = Spec.keyOf lib st d l k)) = none) ∧
      ((genSysFromDict lib st d l k force).1.cache = some c ∧ (genSysFromDict lib st d l k force).1.objs = st.objs ∧
          (∃ e, (genSysFromDict lib st d l k force).2 = .error e) ∨
        (genSysFromDict lib st d l k force).1.cache = some ((Spec.keyOf lib st d l k, st.objs.length) :: c) ∧
          (∃ m, (genSysFromDict lib st d l k force).1.objs = st.objs ++ [m]) ∧ (genSysFromDict lib st d l k force).2 = .ok st.objs.length) := by
  have hp : ∀ (s : St C S D Y) (c : List (Y × Nat)), s.objs = st.objs → s.dicts d = ⟨(st.dicts d).core, some l, some k, (st.dicts d).data⟩ →
      ((process lib s d c l k).1.cache = some c ∧ (process lib s d c l k).1.objs = st.objs ∧ (∃ e, (process lib s d c l k).2 = .error e) ∨
        (process lib s d c l k).1.cache = some ((Spec.keyOf lib st d l k, st.objs.length) :: c) ∧
          (∃ m, (process lib s d c l k).1.objs = st.objs ++ [m]) ∧ (process lib s d c l k).2 = .ok st.objs.length) := by
    intro s c ho hd
    unfold process
    cases hs : lib.solve (s.dicts d).core l k with
    | error e => simp only [hs]; exact Or.inl ⟨trivial, ho, e, rfl⟩
    | ok s' =>
      simp only [hs]
      right
      refine ⟨?_, ⟨_, by rw [ho]⟩, by rw [ho]⟩
      rw [hd, ho]; rfl
  unfold genSysFromDict
  cases force with
  | true =>
    right
    exact ⟨[], Or.inl ⟨rfl, rfl⟩, hp _ [] rfl (by simp)⟩
  | false =>
    cases hc : st.cache with
    | none =>
      right
      exact ⟨[], Or.inr (Or.inl ⟨rfl, rfl, rfl⟩), by simpa [hc] using hp { st with dicts := fun d' => if d' = d then { st.dicts d with lMax := some l, kMax := some k } else st.dicts d', cache := none } [] rfl (by simp)⟩
    | some c =>
      simp only [hc]
      cases hf : c.find? (fun e => decide (e.1 = lib.dump { st.dicts d with lMax := some l, kMax := some k })) with
      | none =>
        right
        simp only [hf]
        exact ⟨c, Or.inr (Or.inr ⟨by trivial, by trivial, hf⟩), hp _ c rfl (by simp)⟩
      | some e =>
        left
        simp only [hf]
        have he : e.1 = Spec.keyOf lib st d l k := by simpa [Spec.keyOf] using List.find?_some hf
        refine ⟨by trivial, c, e.2, by trivial, ?_, by trivial, by trivial, by trivial⟩
        rw [show (Spec.keyOf lib st d l k, e.2) = e from by rw [← he]]
        exact hf

theorem putData_same (st : St C S D Y) (o : Nat) (x : D) : (putData st o x).cache = st.cache ∧ (putData st o x).objs.length = st.objs.length := by
  unfold putData
  cases st.objs[o]? with
  | none => exact ⟨rfl, rfl⟩
  | some m => exact ⟨rfl, by simp⟩

theorem step_length (lib : Lib C S D Y) (st : St C S D Y) (op : Op C D) : st.objs.length ≤ (step lib st op).objs.length := by
  cases op with
  | dict d md => exact le_refl _
  | data o x => exact le_of_eq (putData_same st o x).2.symm
  | make d l k f =>
    show st.objs.length ≤ (genSysFromDict lib st d l k f).1.objs.length
    rcases genSysFromDict_cases lib st d l k f with ⟨_, c, o, _, _, _, h, _⟩ | ⟨c, _, ⟨_, h, _⟩ | ⟨_, ⟨m, h⟩, _⟩⟩
    · rw [h]
    · rw [h]
    · rw [h]; simp

theorem make_once (lib : Lib C S D Y) (st : St C S D Y) (d : Nat) (l k : Option Int) (f : Bool) (h : CacheOnce st) :
    CacheOnce (genSysFromDict lib st d l k f).1 := by
  rcases genSysFromDict_cases lib st d l k f with ⟨_, c, o, _, _, _, h1, h2⟩ | ⟨c, hc, h1⟩
  · intro c' hc'
    rw [h2] at hc'
    rw [h1]
    exact h c' hc'
  · have hco : (c.map Prod.snd).Nodup ∧ ∀ e ∈ c, e.2 < st.objs.length := by
      rcases hc with ⟨_, rfl⟩ | ⟨_, _, rfl⟩ | ⟨_, hs, _⟩
      · simp
      · simp
      · exact h c hs
    rcases h1 with ⟨e1, e2, _⟩ | ⟨e1, ⟨m, e2⟩, _⟩
    · intro c' hc'
      rw [e1] at hc'
      cases hc'
      rw [e2]; exact hco
    · intro c' hc'
      rw [e1] at hc'
      cases hc'
      rw [e2]
      refine ⟨?_, ?_⟩
      · simp only [List.map_cons, List.nodup_cons]
        refine ⟨fun hm => ?_, hco.1⟩
        obtain ⟨e, he, heq⟩ := List.mem_map.1 hm
        exact absurd (hco.2 e he) (by rw [heq]; exact lt_irrefl _)
      · intro e he
        rcases List.mem_cons.1 he with rfl | he
        · simp
        · have := hco.2 e he
          simp only [List.length_append, List.length_singleton]
          omega

theorem step_once (lib : Lib C S D Y) (st : St C S D Y) (op : Op C D) (h : CacheOnce st) : CacheOnce (step lib st op) := by
  cases op with
  | dict d md => exact h
  | data o x =>
    intro c hc
    have hs := putData_same st o x
    rw [show (step lib st (.data o x)) = putData st o x from rfl] at hc ⊢
    rw [hs.1] at hc
    rw [hs.2]
    exact h c hc
  | make d l k f => exact make_once lib st d l k f h

theorem run_once (lib : Lib C S D Y) (ops : List (Op C D)) : ∀ st : St C S D Y, CacheOnce st → CacheOnce (run lib st ops) := by
  induction ops with
  | nil => intro st h; exact h
  | cons op ops ih => intro st h; exact ih _ (step_once lib st op h)

theorem step_has (lib : Lib C S D Y) (st : St C S D Y) (op : Op C D) (y : Y) (o : Nat) (h : CacheHas st y o) (hop : ¬ Spec.ForcedCall op) :
    CacheHas (step lib st op) y o := by
  cases op with
  | dict d md => exact h
  | data o' x =>
    obtain ⟨c, hc, hf⟩ := h
    exact ⟨c, (putData_same st o' x).1.trans hc, hf⟩
  | make d l k f =>
    have hf' : f = false := by simpa [Spec.ForcedCall] using hop
    obtain ⟨c0, hc0, hf0⟩ := h
    show CacheHas (genSysFromDict lib st d l k f).1 y o
    rcases genSysFromDict_cases lib st d l k f with ⟨_, c, o', _, _, _, _, h2⟩ | ⟨c, hc, h1⟩
    · exact ⟨c0, h2.trans hc0, hf0⟩
    · have hcc : c = c0 ∧ c.find? (fun e => decide (e.1 = Spec.keyOf lib st d l k)) = none := by
        rcases hc with ⟨h3, _⟩ | ⟨_, h3, _⟩ | ⟨_, h3, h4⟩
        · rw [hf'] at h3; cases h3
        · rw [hc0] at h3; cases h3
        · rw [hc0] at h3; exact ⟨(Option.some.inj h3).symm, h4⟩
      obtain ⟨rfl, hn⟩ := hcc
      rcases h1 with ⟨e1, _, _⟩ | ⟨e1, _, _⟩
      · exact ⟨c, e1, hf0⟩
      · refine ⟨_, e1, ?_⟩
        rw [List.find?_cons]
        by_cases hy : Spec.keyOf lib st d l k = y
        · rw [hy] at hn; rw [hn] at hf0; cases hf0
        · simp only [hy, decide_false]; exact hf0

theorem step_lost (lib : Lib C S D Y) (st : St C S D Y) (op : Op C D) (o : Nat) (h : CacheLost st o) : CacheLost (step lib st op) o := by
  refine ⟨lt_of_lt_of_le h.1 (step_length lib st op), ?_⟩
  cases op with
  | dict d md => exact h.2
  | data o' x =>
    intro c hc
    exact h.2 c ((putData_same st o' x).1.symm.trans hc)
  | make d l k f =>
    intro c' hc'
    have hc' : (genSysFromDict lib st d l k f).1.cache = some c' := hc'
    rcases genSysFromDict_cases lib st d l k f with ⟨_, c, o', _, _, _, _, h2⟩ | ⟨c, hc, h1⟩
    · exact h.2 c' (h2.symm.trans hc')
    · have hco : ∀ e ∈ c, e.2 ≠ o := by
        rcases hc with ⟨_, rfl⟩ | ⟨_, _, rfl⟩ | ⟨_, hs, _⟩
        · simp
        · simp
        · exact h.2 c hs
      rcases h1 with ⟨e1, _, _⟩ | ⟨e1, _, _⟩
      · rw [e1] at hc'; cases hc'; exact hco
      · rw [e1] at hc'; cases hc'
        intro e he
        rcases List.mem_cons.1 he with rfl | he
        · exact (ne_of_lt h.1).symm
        · exact hco e he

theorem step_forced (lib : Lib C S D Y) (st : St C S D Y) (op : Op C D) (o : Nat) (ho : o < st.objs.length) (hop : Spec.ForcedCall op) :
    CacheLost (step lib st op) o := by
  refine ⟨lt_of_lt_of_le ho (step_length lib st op), ?_⟩
  cases op with
  | dict d md => exact absurd hop (by simp [Spec.ForcedCall])
  | data o' x => exact absurd hop (by simp [Spec.ForcedCall])
  | make d l k f =>
    have hf : f = true := hop
    intro c' hc'
    have hc' : (genSysFromDict lib st d l k f).1.cache = some c' := hc'
    rcases genSysFromDict_cases lib st d l k f with ⟨h0, _⟩ | ⟨c, hc, h1⟩
    · rw [hf] at h0; cases h0
    · have hco : c = [] := by
        rcases hc with ⟨_, h⟩ | ⟨h, _⟩ | ⟨h, _⟩
        · exact h
        · rw [hf] at h; cases h
        · rw [hf] at h; cases h
      subst hco
      rcases h1 with ⟨e1, _, _⟩ | ⟨e1, _, _⟩
      · rw [e1] at hc'; cases hc'; simp
      · rw [e1] at hc'; cases hc'
        intro e he
        rcases List.mem_cons.1 he with rfl | he
        · exact (ne_of_lt ho).symm
        · cases he

theorem run_has (lib : Lib C S D Y) (y : Y) (o : Nat) (ops : List (Op C D)) : ∀ st : St C S D Y, CacheHas st y o → o < st.objs.length →
    ((∃ op ∈ ops, Spec.ForcedCall op) → CacheLost (run lib st ops) o) ∧
    ((∀ op ∈ ops, ¬ Spec.ForcedCall op) → CacheHas (run lib st ops) y o) := by
  have hl : ∀ (ops : List (Op C D)) (st : St C S D Y), CacheLost st o → CacheLost (run lib st ops) o := by
    intro ops
    induction ops with
    | nil => intro st h; exact h
    | cons op ops ih => intro st h; exact ih _ (step_lost lib st op o h)
  induction ops with
  | nil => intro st h _; exact ⟨fun ⟨_, hm, _⟩ => absurd hm (by simp), fun _ => h⟩
  | cons op ops ih =>
    intro st h ho
    by_cases hop : Spec.ForcedCall op
    · exact ⟨fun _ => hl ops _ (step_forced lib st op o ho hop), fun hall => absurd hop (hall op (by simp))⟩
    · have := ih (step lib st op) (step_has lib st op y o h hop) (lt_of_lt_of_le ho (step_length lib st op))
      refine ⟨fun ⟨op', hm, hf⟩ => this.1 ?_, fun hall => this.2 fun op' hm => hall op' (List.mem_cons_of_mem _ hm)⟩
      rcases List.mem_cons.1 hm with rfl | hm
      · exact absurd hf hop
      · exact ⟨op', hm, hf⟩

/-- **C86, exactly.** In any process: a call has returned the object `o`, then any calls were made, and then another call returns `o'`. It is the same object iff
no call after the first one had `force_processing`, and the dictionaries (with the bounds of the calls) had the same pickle at the time of the two calls. -/
theorem C86_same_object_iff (lib : Lib C S D Y) (dicts : Nat → MDict C D) (before between : List (Op C D)) (d d' : Nat) (l k l' k' : Option Int)
    (force force' : Bool) (o o' : Nat) (st st' : St C S D Y) (h : genSysFromDict lib (run lib (start dicts) before) d l k force = (st, .ok o))
    (h' : genSysFromDict lib (run lib st between) d' l' k' force' = (st', .ok o')) :
    o' = o ↔ force' = false ∧ (∀ op ∈ between, ¬ Spec.ForcedCall op) ∧
      Spec.keyOf lib (run lib st between) d' l' k' = Spec.keyOf lib (run lib (start dicts) before) d l k := by
  have h0 : CacheOnce (run lib (start (S := S) (Y := Y) dicts) before) := run_once lib before _ (by intro c hc; cases hc)
  generalize run lib (start dicts) before = s at h h0
  have h1 : CacheOnce st := by have := make_once lib s d l k force h0; rwa [h] at this
  have hr : CacheHas st (Spec.keyOf lib s d l k) o ∧ o < st.objs.length := by
    rcases genSysFromDict_cases lib s d l k force with ⟨_, c, o1, hc, hf, ho, hobj, hca⟩ | ⟨c, hc, ⟨_, _, e, he⟩ | ⟨e1, ⟨m, e2⟩, e3⟩⟩
    · rw [h] at ho hobj hca
      cases ho
      refine ⟨⟨c, hca.trans hc, hf⟩, ?_⟩
      rw [hobj]
      exact (h0 c hc).2 _ (List.mem_of_find?_eq_some hf)
    · rw [h] at he; cases he
    · rw [h] at e1 e2 e3
      cases e3
      exact ⟨⟨_, e1, by simp⟩, by rw [e2]; simp⟩
  obtain ⟨ha, hb⟩ := run_has lib _ o between st hr.1 hr.2
  have hlen : o < (run lib st between).objs.length := by
    by_cases hx : ∃ op ∈ between, Spec.ForcedCall op
    · exact (ha hx).1
    · push Not at hx
      obtain ⟨c, hc, hf⟩ := hb hx
      exact (run_once lib between st h1 c hc).2 _ (List.mem_of_find?_eq_some hf)
  have h2 : CacheOnce (run lib st between) := run_once lib between st h1
  generalize run lib st between = s2 at h' ha hb hlen h2
  rcases genSysFromDict_cases lib s2 d' l' k' force' with ⟨hff, c, o1, hc, hf, ho, _, _⟩ | ⟨c, hc, ⟨_, _, e, he⟩ | ⟨_, _, e3⟩⟩
  · rw [h'] at ho
    cases ho
    constructor
    · rintro rfl
      have hno : ∀ op ∈ between, ¬ Spec.ForcedCall op := by
        intro op hm hop
        exact (ha ⟨op, hm, hop⟩).2 c hc _ (List.mem_of_find?_eq_some hf) rfl
      refine ⟨hff, hno, ?_⟩
      obtain ⟨c2, hc2, hf2⟩ := hb hno
      rw [hc] at hc2
      cases hc2
      have := List.inj_on_of_nodup_map (h2 c hc).1 (List.mem_of_find?_eq_some hf) (List.mem_of_find?_eq_some hf2) rfl
      exact (Prod.mk.inj this).1
    · rintro ⟨_, hno, hk⟩
      obtain ⟨c2, hc2, hf2⟩ := hb hno
      rw [hc] at hc2
      cases hc2
      rw [hk, hf2] at hf
      exact (Prod.mk.inj (Option.some.inj hf)).2.symm
  · rw [h'] at he; cases he
  · rw [h'] at e3
    cases e3
    refine ⟨fun heq => absurd hlen (by rw [heq]; exact lt_irrefl _), ?_⟩
    rintro ⟨hff, hno, hk⟩
    obtain ⟨c2, hc2, hf2⟩ := hb hno
    rcases hc with ⟨h3, _⟩ | ⟨_, h3, _⟩ | ⟨_, h3, h4⟩
    · rw [hff] at h3; cases h3
    · rw [hc2] at h3; cases h3
    · rw [hc2] at h3
      cases h3
      rw [hk, hf2] at h4
      cases h4

/-- C86: both sides occur: a model with a dictionary is asked for again, at once, with another bound, and after a forced call for another dictionary. -/
theorem C86_iff_hypotheses_met :
    let lib : Lib Nat Nat Unit (Nat × Option (Option Int)) := ⟨fun md => (md.core, md.lMax), fun c _ _ => .ok c⟩
    let s0 : St Nat Nat Unit (Nat × Option (Option Int)) := start fun d => ⟨d, none, none, none⟩
    let s1 := (genSysFromDict lib s0 0 none none false).1
    (genSysFromDict lib s0 0 none none false).2 = .ok 0 ∧ (genSysFromDict lib s1 0 none none false).2 = .ok 0 ∧
      (genSysFromDict lib s1 0 (some 2) none false).2 = .ok 1 ∧
      (genSysFromDict lib (step lib s1 (.make 1 none none true)) 0 none none false).2 = .ok 2 := by
  decide +kernel

end
end Pydsge
