import Mathlib.Data.List.Nodup
import Verif.Model.Assemble
import Verif.Props.Params

/-!
# C138: calibration and priors of a model file
-/

set_option autoImplicit false
set_option linter.unusedSectionVars false
set_option linter.unusedSimpArgs false

namespace Pydsge

open Params Assemble

variable {K α : Type}

namespace Assemble

theorem dictSet_keys (d : List (String × α)) (e : String × α) :
    (dictSet d e).map Prod.fst = if e.1 ∈ d.map Prod.fst then d.map Prod.fst else d.map Prod.fst ++ [e.1] := by
  induction d with
  | nil => simp [dictSet]
  | cons x d ih =>
    obtain ⟨k, v⟩ := x
    unfold dictSet
    by_cases h : k = e.1
    · simp [h]
    · rw [if_neg h, List.map_cons, ih]
      by_cases h' : e.1 ∈ d.map Prod.fst
      · simp [h']
      · have : e.1 ∉ (((k, v) :: d).map Prod.fst) := by
          rw [List.map_cons, List.mem_cons, not_or]
          exact ⟨fun h2 => h h2.symm, h'⟩
        rw [if_neg h', if_neg this]
        simp

theorem dictSet_get (d : List (String × α)) (e : String × α) (n : String) :
    dictGet (dictSet d e) n = if n = e.1 then .ok e.2 else dictGet d n := by
  induction d with
  | nil =>
    by_cases h : n = e.1
    · simp [dictSet, dictGet, h]
    · have : ¬ e.1 = n := fun h' => h h'.symm
      simp [dictSet, dictGet, h, this]
  | cons x d ih =>
    obtain ⟨k, v⟩ := x
    unfold dictSet
    by_cases h : k = e.1
    · rw [if_pos h]
      by_cases hn : n = e.1
      · simp [dictGet, h, hn]
      · have : ¬ k = n := fun h' => hn (h'.symm.trans h)
        simp [dictGet, hn, this]
    · rw [if_neg h]
      by_cases hk : k = n
      · have hn : ¬ n = e.1 := fun h' => h (hk.trans h')
        simp [dictGet, hk, hn]
      · have e1 : ∀ l : List (String × α), dictGet ((k, v) :: l) n = dictGet l n := fun l => by simp [dictGet, hk]
        rw [e1, e1, ih]

theorem mapping_append (l : List (String × α)) (e : String × α) : mapping (l ++ [e]) = dictSet (mapping l) e := by
  simp [mapping]

theorem mapping_nodup (l : List (String × α)) : ((mapping l).map Prod.fst).Nodup := by
  induction l using List.reverseRecOn with
  | nil => simp [mapping]
  | append_singleton l e ih =>
    rw [mapping_append, dictSet_keys]
    split_ifs with h
    · exact ih
    · rw [List.nodup_append]
      exact ⟨ih, by simp, by rintro a ha b hb rfl; simp at hb; exact h (hb ▸ ha)⟩

theorem mem_mapping (l : List (String × α)) (n : String) : n ∈ (mapping l).map Prod.fst ↔ n ∈ l.map Prod.fst := by
  induction l using List.reverseRecOn with
  | nil => simp [mapping]
  | append_singleton l e ih =>
    rw [mapping_append, dictSet_keys, List.map_append, List.mem_append, ← ih]
    split_ifs with h
    · constructor
      · exact Or.inl
      · rintro (h' | h')
        · exact h'
        · simp at h'; exact h' ▸ h
    · simp

/-- The value of the last line with that key. -/
def lastValue (lines : List (String × α)) (n : String) : Option α := (lines.reverse.find? (fun e => e.1 = n)).map Prod.snd

theorem mapping_get (l : List (String × α)) (n : String) :
    dictGet (mapping l) n = match lastValue l n with
      | some v => .ok v
      | none => .error .keyError := by
  induction l using List.reverseRecOn with
  | nil => simp [mapping, dictGet, lastValue]
  | append_singleton l e ih =>
    rw [mapping_append, dictSet_get]
    by_cases h : n = e.1
    · simp [lastValue, h]
    · have h' : ¬ e.1 = n := fun h2 => h h2.symm
      rw [if_neg h, ih]
      simp [lastValue, h']

theorem mapM_ok_of {β γ : Type} (f : β → Except PyErr γ) (g : β → γ) (l : List β) (h : ∀ x ∈ l, f x = .ok (g x)) :
    l.mapM f = .ok (l.map g) := by
  induction l with
  | nil => rfl
  | cons x l ih =>
    rw [List.mapM_cons, h x (by simp), ih (fun y hy => h y (by simp [hy]))]
    rfl

theorem mapM_congr {β γ : Type} (f g : β → Except PyErr γ) (l : List β) (h : ∀ x ∈ l, f x = g x) : l.mapM f = l.mapM g := by
  induction l with
  | nil => rfl
  | cons x l ih => rw [List.mapM_cons, List.mapM_cons, h x (by simp), ih (fun y hy => h y (by simp [hy]))]

theorem mapM_index_error (names l : List String) (h : ¬ ∀ x ∈ l, x ∈ names) : l.mapM (index names) = .error .valueError := by
  induction l with
  | nil => simp at h
  | cons x l ih =>
    rw [List.mapM_cons]
    by_cases hx : x ∈ names
    · have hl : ¬ ∀ x ∈ l, x ∈ names := fun h' => h (by simpa [hx] using h')
      rw [ih hl, index, if_pos hx]
      rfl
    · rw [index, if_neg hx]
      rfl

theorem dictGet_self (d : List (String × α)) (h : (d.map Prod.fst).Nodup) : (d.map Prod.fst).mapM (dictGet d) = .ok (d.map Prod.snd) := by
  induction d with
  | nil => rfl
  | cons x d ih =>
    obtain ⟨k, v⟩ := x
    rw [List.map_cons, List.nodup_cons] at h
    rw [List.map_cons, List.mapM_cons]
    have h1 : dictGet ((k, v) :: d) k = .ok v := by simp [dictGet]
    have h2 : (d.map Prod.fst).mapM (dictGet ((k, v) :: d)) = (d.map Prod.fst).mapM (dictGet d) := by
      refine mapM_congr _ _ _ ?_
      intro n hn
      have : ¬ k = n := fun h' => h.1 (h' ▸ hn)
      simp [dictGet, this]
    rw [h1, h2, ih h.2]
    rfl

theorem p0_eq (l : List (String × α)) : p0 (mapping l) ((mapping l).map Prod.fst) = .ok ((mapping l).map Prod.snd) :=
  dictGet_self _ (mapping_nodup l)

theorem dictGet_at (d : List (String × α)) (hnd : (d.map Prod.fst).Nodup) (i : Nat) (k : String) (v : α) (he : d[i]? = some (k, v)) :
    dictGet d k = .ok v := by
  induction d generalizing i with
  | nil => simp at he
  | cons x d ih =>
    rw [List.map_cons, List.nodup_cons] at hnd
    cases i with
    | zero =>
      simp only [List.getElem?_cons_zero, Option.some.injEq] at he
      subst he
      simp [dictGet]
    | succ i =>
      simp only [List.getElem?_cons_succ] at he
      have hmem : k ∈ d.map Prod.fst := List.mem_map_of_mem (f := Prod.fst) (List.mem_of_getElem? he)
      have : ¬ x.1 = k := fun h' => hnd.1 (h' ▸ hmem)
      have e := ih hnd.2 i he
      unfold dictGet at e ⊢
      rw [List.find?_cons_of_neg (by simpa using this)]
      exact e

end Assemble

/-- The sections can be read: no section is empty, and every prior is for a parameter. -/
def Readable (s : Sections K) : Prop :=
  (∀ l, s.estimation = .given (.given l) → ∀ n ∈ l.map Prod.fst, n ∈ s.params.map Prod.fst) ∧
    s.estimation ≠ .empty ∧ s.estimation ≠ .given .empty ∧ s.parafunc ≠ .empty

namespace Assemble

theorem readPrior_ok {names : List String} {s : Sec (Sec (List (String × PriorEntry K)))} {p : Prior K}
    (h : readPrior names s = .ok (some p)) :
    ∃ l, s = .given (.given l) ∧ p.names = (mapping l).map Prod.fst ∧ p.entries = (mapping l).map Prod.snd ∧
      (∀ n ∈ l.map Prod.fst, n ∈ names) ∧ p.arg = p.names.map names.idxOf := by
  cases s with
  | missing => cases h
  | empty => cases h
  | given s =>
    cases s with
    | missing => cases h
    | empty => cases h
    | given l =>
      simp only [readPrior] at h
      by_cases hm : ∀ n ∈ (mapping l).map Prod.fst, n ∈ names
      · have : ((mapping l).map Prod.fst).mapM (index names) = .ok (((mapping l).map Prod.fst).map names.idxOf) :=
          mapM_ok_of _ _ _ (fun x hx => by rw [index, if_pos (hm x hx)])
        rw [this] at h
        simp only [Except.ok.injEq, Option.some.injEq] at h
        subst h
        exact ⟨l, rfl, rfl, rfl, fun n hn => hm n ((mem_mapping l n).2 hn), rfl⟩
      · rw [mapM_index_error _ _ hm] at h
        cases h

end Assemble

/-- **C138.** Exactly the readable sections are accepted. -/
theorem C138_accepted_iff (s : Sections K) (pf : List K → List K) : (∃ D, readDecl s pf = .ok D) ↔ Readable s := by
  unfold readDecl Readable
  simp only [p0_eq]
  cases hpf : s.parafunc with
  | empty => simp [readParafunc]
  | missing =>
    simp only [readParafunc]
    cases he : s.estimation with
    | missing => simp [readPrior]
    | empty => simp [readPrior]
    | given e =>
      cases e with
      | missing => simp [readPrior]
      | empty => simp [readPrior]
      | given l =>
        by_cases hm : ∀ n ∈ (mapping l).map Prod.fst, n ∈ (mapping s.params).map Prod.fst
        · have : ((mapping l).map Prod.fst).mapM (index ((mapping s.params).map Prod.fst)) =
              .ok (((mapping l).map Prod.fst).map ((mapping s.params).map Prod.fst).idxOf) :=
            mapM_ok_of _ _ _ (fun x hx => by rw [index, if_pos (hm x hx)])
          simp only [readPrior, this, Except.ok.injEq, exists_eq', true_iff]
          refine ⟨?_, by simp, by simp, by simp⟩
          rintro l' hl n hn
          simp only [Sec.given.injEq] at hl
          subst hl
          exact (mem_mapping _ _).1 (hm n ((mem_mapping _ _).2 hn))
        · simp only [readPrior, mapM_index_error _ _ hm]
          simp only [reduceCtorEq, exists_false, false_iff]
          rintro ⟨h, -⟩
          exact hm fun n hn => (mem_mapping _ _).2 (h l rfl n ((mem_mapping _ _).1 hn))
  | given f =>
    simp only [readParafunc]
    cases he : s.estimation with
    | missing => simp [readPrior]
    | empty => simp [readPrior]
    | given e =>
      cases e with
      | missing => simp [readPrior]
      | empty => simp [readPrior]
      | given l =>
        by_cases hm : ∀ n ∈ (mapping l).map Prod.fst, n ∈ (mapping s.params).map Prod.fst
        · have : ((mapping l).map Prod.fst).mapM (index ((mapping s.params).map Prod.fst)) =
              .ok (((mapping l).map Prod.fst).map ((mapping s.params).map Prod.fst).idxOf) :=
            mapM_ok_of _ _ _ (fun x hx => by rw [index, if_pos (hm x hx)])
          simp only [readPrior, this, Except.ok.injEq, exists_eq', true_iff]
          refine ⟨?_, by simp, by simp, by simp⟩
          rintro l' hl n hn
          simp only [Sec.given.injEq] at hl
          subst hl
          exact (mem_mapping _ _).1 (hm n ((mem_mapping _ _).2 hn))
        · simp only [readPrior, mapM_index_error _ _ hm]
          simp only [reduceCtorEq, exists_false, false_iff]
          rintro ⟨h, -⟩
          exact hm fun n hn => (mem_mapping _ _).2 (h l rfl n ((mem_mapping _ _).1 hn))

/-- **C138.** What is read is well-formed in the sense of C30-C35, C73 and C118: names are listed once, there is one value per name, and the
positions of the priors are those of their parameters. -/
theorem C138_well_formed {s : Sections K} {pf : List K → List K} {D : Decl K} (h : readDecl s pf = .ok D) : WF D := by
  unfold readDecl at h
  simp only [p0_eq] at h
  split at h
  · cases h
  · split at h
    · cases h
    · rename_i prior hp
      simp only [Except.ok.injEq] at h
      subst h
      refine ⟨by simp, mapping_nodup _, ?_⟩
      rintro p rfl
      obtain ⟨l, -, h1, -, h3, h4⟩ := readPrior_ok hp
      refine ⟨by rw [h1]; exact mapping_nodup l, h4, fun n hn => ?_⟩
      rw [h1] at hn
      exact h3 n ((mem_mapping _ _).1 hn)

/-- **C138.** The names of the parameters are those of the section, and each has the value of the last line that mentions it. -/
theorem C138_calibration {s : Sections K} {pf : List K → List K} {D : Decl K} (h : readDecl s pf = .ok D) :
    (∀ n, n ∈ D.names ↔ n ∈ s.params.map Prod.fst) ∧
      ∀ (i : Nat) (n : String), D.names[i]? = some n → D.parFix[i]? = lastValue s.params n := by
  unfold readDecl at h
  simp only [p0_eq] at h
  split at h
  · cases h
  · split at h
    · cases h
    · simp only [Except.ok.injEq] at h
      subst h
      refine ⟨mem_mapping _, fun i n hi => ?_⟩
      simp only [List.getElem?_map, Option.map_eq_some_iff] at hi ⊢
      obtain ⟨⟨k, v⟩, he, rfl⟩ := hi
      rw [he]
      have hv := dictGet_at _ (mapping_nodup s.params) i k v he
      rw [mapping_get] at hv
      simp only [Option.map_some]
      cases hl : lastValue s.params k with
      | none => rw [hl] at hv; cases hv
      | some w => rw [hl] at hv; simp only [Except.ok.injEq] at hv; rw [hv]

/-- **C138.** The priors are those of the section: same names, each with the entry of the last line that mentions it, and its position points
to the parameter of that name. Without a section there are no priors. -/
theorem C138_priors_partial {s : Sections K} {pf : List K → List K} {D : Decl K} (h : readDecl s pf = .ok D) :
    match D.prior with
    | none => s.estimation = .missing ∨ s.estimation = .given .missing
    | some p => ∃ l, s.estimation = .given (.given l) ∧ (∀ n, n ∈ p.names ↔ n ∈ l.map Prod.fst) ∧ p.arg.length = p.names.length ∧
        ∀ (j : Nat) (n : String), p.names[j]? = some n →
          (∃ i, p.arg[j]? = some i ∧ D.names[i]? = some n) ∧ p.entries[j]? = lastValue l n := by
  have hw := C138_well_formed h
  have h0 := h
  unfold readDecl at h
  simp only [p0_eq] at h
  split at h
  · cases h
  · split at h
    · cases h
    · rename_i prior hp
      simp only [Except.ok.injEq] at h
      subst h
      cases prior with
      | none =>
        simp only
        cases he : s.estimation with
        | missing => exact Or.inl rfl
        | empty => rw [he] at hp; cases hp
        | given e =>
          cases e with
          | missing => exact Or.inr rfl
          | empty => rw [he] at hp; cases hp
          | given l =>
            rw [he] at hp
            simp only [readPrior] at hp
            split at hp <;> cases hp
      | some p =>
        obtain ⟨l, h1, h2, h2', h3, h4⟩ := readPrior_ok hp
        refine ⟨l, h1, fun n => by rw [h2]; exact mem_mapping l n, hw.argLen rfl, fun j n hj => ⟨?_, ?_⟩⟩
        · rw [h4, List.getElem?_map, hj]
          refine ⟨_, rfl, ?_⟩
          have hn : n ∈ (mapping s.params).map Prod.fst := (hw.prior p rfl).2.2 n (List.mem_of_getElem? hj)
          have hlt := List.idxOf_lt_length_iff.2 hn
          rw [List.getElem?_eq_getElem hlt]
          simp
        · have hc := C138_calibration (s := ⟨l, .missing, .missing⟩) (pf := id) (D := ⟨(mapping l).map Prod.fst, (mapping l).map Prod.snd, [], id, none⟩)
            (by unfold readDecl; simp only [p0_eq]; rfl)
          rw [h2'] 
          exact hc.2 j n (by rw [← h2]; exact hj)

/-- **C138 (negation).** A prior for something that is no parameter (say, a parameter function) is an error. -/
theorem C138_unknown_raises (s : Sections K) (pf : List K → List K) (l : List (String × PriorEntry K)) (hs : s.estimation = .given (.given l))
    (hpf : s.parafunc ≠ .empty) (n : String) (hn : n ∈ l.map Prod.fst) (hno : n ∉ s.params.map Prod.fst) :
    readDecl s pf = .error .valueError := by
  have hm : ¬ ∀ n ∈ (mapping l).map Prod.fst, n ∈ (mapping s.params).map Prod.fst :=
    fun h => hno ((mem_mapping _ _).1 (h n ((mem_mapping _ _).2 hn)))
  unfold readDecl
  simp only [p0_eq, hs, readPrior, mapM_index_error _ _ hm]
  cases hq : s.parafunc with
  | empty => exact absurd hq hpf
  | missing => rfl
  | given f => rfl

/-- **C138 (negation).** A section that is there but empty does not mean that there are no priors: reading the file fails. -/
theorem C138_empty_refuted (params : List (String × K)) (pf : List K → List K) :
    readDecl ⟨params, .missing, .empty⟩ pf = .error .typeError ∧
      readDecl ⟨params, .missing, .given .empty⟩ pf = .error .attributeError ∧
      readDecl ⟨params, .empty, .missing⟩ pf = .error .typeError := by
  unfold readDecl
  simp only [p0_eq]
  exact ⟨rfl, rfl, rfl⟩

/-- A concrete file: `a` is calibrated twice, `b` has a prior. -/
def asmEx : Sections Rat :=
  ⟨[("a", 1), ("b", 2), ("a", 3)], .given [("f", ())], .given (.given [("b", ⟨true, false, 0, 1⟩)])⟩

theorem asmEx_readable : Readable asmEx := by
  refine ⟨?_, by simp [asmEx], by simp [asmEx], by simp [asmEx]⟩
  rintro l hl n hn
  simp only [asmEx, Sec.given.injEq] at hl
  subst hl
  revert hn
  simp [asmEx]
  tauto

theorem asmEx_read : ∃ D, readDecl asmEx id = .ok D ∧ D.names = ["a", "b"] ∧ D.parFix = [3, 2] ∧ D.prior.map Prior.arg = some [1] ∧
    WF D := by
  obtain ⟨D, hD⟩ := (C138_accepted_iff asmEx id).2 asmEx_readable
  refine ⟨D, hD, ?_, ?_, ?_, C138_well_formed hD⟩
  all_goals
    have : readDecl asmEx id = .ok ⟨["a", "b"], [3, 2], ["f"], id, some ⟨["b"], [1], [⟨true, false, 0, 1⟩]⟩⟩ := by rfl
    rw [this] at hD
    cases hD
    rfl

end Pydsge
